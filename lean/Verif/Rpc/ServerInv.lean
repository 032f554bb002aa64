import Verif.Rpc.ServerStep

/-!
# Invariants of the server (proof helpers)
-/

namespace Verif.Server

open Verif Verif.ServerSpec

variable {σ C : Type}

theorem replay_snoc (sv : Service σ C) (b : σ) (l : List (Nat × Input)) (c : Nat) (i : Input) :
    replay sv b (l ++ [(c, i)]) = (exec1 sv (replay sv b l) i).1 := by
  induction l generalizing b with
  | nil => rfl
  | cons p l ih => exact ih _

theorem repliesTo_snoc (sv : Service σ C) (b : σ) (l : List (Nat × Input)) (c c' : Nat)
    (i : Input) :
    repliesTo sv c b (l ++ [(c', i)]) =
      repliesTo sv c b l ++ (if c' = c then (exec1 sv (replay sv b l) i).2.toList else []) := by
  induction l generalizing b with
  | nil => simp [repliesTo, replay]
  | cons p l ih => simp only [List.cons_append, repliesTo, replay, List.append_assoc]; rw [ih]

theorem streams_snoc (sv : Service σ C) (b : σ) (l : List (Nat × Input)) (c : Nat) (i : Input) :
    streams sv b (l ++ [(c, i)]) =
      streams sv b l ++ (starts sv (replay sv b l) c i).toList := by
  induction l generalizing b with
  | nil => simp [streams, replay]
  | cons p l ih => simp only [List.cons_append, streams, replay, List.append_assoc]; rw [ih]

/-- One entry of the table, after one more request. -/
theorem active_snoc (sv : Service σ C) (b : σ) (n : Nat) (m : Nat → Option Nat)
    (l : List (Nat × Input)) (c : Nat) (i : Input) :
    active sv b n m (l ++ [(c, i)]) =
      active sv (replay sv b l) (n + (streams sv b l).length) (active sv b n m l) [(c, i)] := by
  induction l generalizing b n m with
  | nil => simp [active, replay, streams]
  | cons p l ih =>
    obtain ⟨c', i'⟩ := p
    simp only [List.cons_append, active, replay, streams]
    split
    · rename_i st hst
      rw [ih, hst]
      simp only [Option.toList, List.length_append, List.length_cons, List.length_nil, active]
      rw [Nat.zero_add, Nat.add_assoc]
    · rename_i hst
      rw [ih, hst]
      simp [active]
    · rename_i hst
      rw [ih, hst]
      simp [active]

theorem Conn.send_alive (c : Conn) (f : Option Nat) (r : Response) :
    (c.send f r).1.alive = c.alive := by
  unfold Conn.send; split <;> simp_all

@[simp] theorem Conn.close_produced (c : Conn) : c.close.produced = c.produced := rfl
@[simp] theorem Conn.close_written (c : Conn) : c.close.written = c.written := rfl
@[simp] theorem Conn.close_alive (c : Conn) : c.close.alive = false := rfl

theorem Conn.send_produced (c : Conn) (f : Option Nat) (r : Response) :
    (c.send f r).1.produced = if c.alive then c.produced ++ [(f, r)] else c.produced := by
  unfold Conn.send; split <;> simp_all

@[simp] theorem kill_conns (s : State σ C) : s.killLoop.conns = s.conns := rfl
@[simp] theorem kill_log (s : State σ C) : s.killLoop.log = s.log := rfl
@[simp] theorem kill_accepted (s : State σ C) : s.killLoop.accepted = s.accepted := rfl
@[simp] theorem kill_backend (s : State σ C) : s.killLoop.backend = s.backend := rfl
@[simp] theorem kill_loop (s : State σ C) : s.killLoop.loop = .dead := rfl
@[simp] theorem kill_queue (s : State σ C) : s.killLoop.queue = [] := rfl
@[simp] theorem kill_nconn (s : State σ C) : s.killLoop.nconn = s.nconn := rfl
@[simp] theorem kill_ntask (s : State σ C) : s.killLoop.ntask = s.ntask := rfl
@[simp] theorem kill_subs (s : State σ C) : s.killLoop.subs = [] := rfl
@[simp] theorem kill_held (s : State σ C) : s.killLoop.held = s.held := rfl
theorem kill_tasks (s : State σ C) (t : Nat) : s.killLoop.tasks t =
    if t ∈ s.subs.map (·.2) then (s.tasks t).abort else s.tasks t := rfl

@[simp] theorem abort_conn (t : Task) : t.abort.conn = t.conn := by
  unfold Task.abort; split <;> rfl
@[simp] theorem abort_id (t : Task) : t.abort.id = t.id := by unfold Task.abort; split <;> rfl
@[simp] theorem abort_src (t : Task) : t.abort.src = t.src := by unfold Task.abort; split <;> rfl
@[simp] theorem abort_pos (t : Task) : t.abort.pos = t.pos := by unfold Task.abort; split <;> rfl

/-- A busy loop works on a decodable method call. -/
theorem inv_busy {sv : Service σ C} {b : σ} {s : State σ C} (h : Reachable sv b s) :
    ∀ c id call i, s.loop = .busy c id call i →
      ∃ v, i = .ok (.exec id v) ∧ sv.decode v = .ok call ∧ sv.isStream call = false := by
  refine Reachable.induct (P := fun s => ∀ c id call i, s.loop = .busy c id call i →
      ∃ v, i = .ok (.exec id v) ∧ sv.decode v = .ok call ∧ sv.isStream call = false) ?_ ?_ h
  · intro c id call i h; simp [init] at h
  · intro s l s' _ ih hst
    cases step_Step hst <;> first
      | exact ih
      | (intro c id call i h; simp only [kill_loop, reduceCtorEq] at h; done)
      | skip
    case takeMethod c id v call q hl hq hd hs =>
      intro c' id' call' i' h
      simp only [Loop.busy.injEq] at h
      obtain ⟨rfl, rfl, rfl, rfl⟩ := h
      exact ⟨v, rfl, hd, hs⟩
    all_goals
      intro c id call i h
      simp_all

/-- Accepted requests are processed in order; nothing is lost while the loop lives. -/
theorem inv_queue {sv : Service σ C} {b : σ} {s : State σ C} (h : Reachable sv b s) :
    (LoopAlive s → s.accepted = s.log ++ inflight s ++ s.queue) ∧ s.log <+: s.accepted := by
  refine Reachable.induct (P := fun s =>
    (LoopAlive s → s.accepted = s.log ++ inflight s ++ s.queue) ∧ s.log <+: s.accepted) ?_ ?_ h
  · exact ⟨fun _ => rfl, List.prefix_refl _⟩
  · intro s l s' _ ih hst
    have h2 : ∀ {l : List (Nat × Input)}, s.accepted = l ++ inflight s ++ s.queue → l <+: s.accepted :=
      fun e => ⟨inflight s ++ s.queue, by rw [e, List.append_assoc]⟩
    cases step_Step hst <;> first
      | exact ih
      | (refine ⟨fun h => absurd h ?_, ih.2⟩; simp [LoopAlive]; done)
      | skip
    case enqueue c doc ha hl =>
      refine ⟨fun _ => ?_, ?_⟩
      · show _ = s.log ++ inflight s ++ (s.queue ++ _)
        simp [ih.1 hl]
      · exact ih.2.trans (List.prefix_append _ _)
    case methodFail c id call i hl ha =>
      refine ⟨fun h => absurd h ?_, ?_⟩
      · simp [LoopAlive]
      · have := ih.1 (by simp [LoopAlive, hl])
        simp only [kill_log, kill_accepted]
        exact ⟨s.queue, by simp [this, inflight, hl]⟩
    all_goals
      have hacc := ih.1 (by simp_all [LoopAlive])
      simp_all [inflight]

theorem exec1_method {sv : Service σ C} {b : σ} {id : Nat} {v : Json} {call : C}
    (hd : sv.decode v = .ok call) (hs : sv.isStream call = false) :
    exec1 sv b (.ok (.exec id v)) =
      ((sv.runMethod b call).1, some (Response.mkMethod id (sv.runMethod b call).2)) := by
  simp only [exec1, hd, hs, Bool.false_eq_true, if_false]
  rcases h : sv.runMethod b call with ⟨b', r⟩
  cases r <;> rfl

theorem inv_backend {sv : Service σ C} {b : σ} {s : State σ C} (h : Reachable sv b s) :
    s.backend = replay sv b s.log := by
  refine Reachable.induct (P := fun s => s.backend = replay sv b s.log) rfl ?_ h
  intro s l s' hr ih hst
  cases step_Step hst <;> first
    | exact ih
    | skip
  all_goals
    simp only [replay_snoc, kill_backend, kill_log]
    rw [← ih]
  case takeStream c id v call q hl hq hd hs => simp [exec1, hd, hs]
  case methodOk c id call i hl ha =>
    obtain ⟨v, rfl, hd, hs⟩ := inv_busy hr _ _ _ _ hl
    rw [exec1_method hd hs]
  case methodFail c id call i hl ha =>
    obtain ⟨v, rfl, hd, hs⟩ := inv_busy hr _ _ _ _ hl
    rw [exec1_method hd hs]
  case takeBad c id v e q hl hq hd => simp [exec1, hd]
  all_goals simp [exec1]

theorem inv_fresh {sv : Service σ C} {b : σ} {s : State σ C} (h : Reachable sv b s) :
    (∀ p ∈ s.accepted, p.1 < s.nconn) ∧ (∀ c, s.nconn ≤ c → s.conns c = deadConn) ∧
    (∀ t, t < s.ntask → (s.tasks t).conn < s.nconn) ∧
    (∀ t, s.ntask ≤ t → s.tasks t = noTask) := by
  refine Reachable.induct (P := fun s =>
    (∀ p ∈ s.accepted, p.1 < s.nconn) ∧ (∀ c, s.nconn ≤ c → s.conns c = deadConn) ∧
    (∀ t, t < s.ntask → (s.tasks t).conn < s.nconn) ∧
    (∀ t, s.ntask ≤ t → s.tasks t = noTask)) ?_ ?_ h
  · refine ⟨?_, ?_, ?_, ?_⟩ <;> simp [init]
  · intro s l s' hr ⟨h1, h2, h3, h4⟩ hst
    have halive : ∀ c, (s.conns c).alive = true → c < s.nconn := by
      intro c hc
      apply Classical.byContradiction
      intro hn
      rw [h2 c (by omega)] at hc
      simp [deadConn] at hc
    have hlog : ∀ {c i q}, s.queue = (c, i) :: q → s.loop = .idle → c < s.nconn := by
      intro c i q hq hl
      apply h1 (c, i)
      rw [(inv_queue hr).1 (by simp [LoopAlive, hl])]
      simp [hq]
    have hupdc : ∀ c x, c < s.nconn → ∀ c', s.nconn ≤ c' → upd s.conns c x c' = deadConn := by
      intro c x hc c' hc'
      rw [upd_ne _ _ (by omega)]
      exact h2 c' hc'
    have htask : ∀ t, (s.tasks t).st ≠ .done → t < s.ntask := by
      intro t ht
      apply Classical.byContradiction
      intro hn
      rw [h4 t (by omega)] at ht
      simp [noTask] at ht
    have hupdt : ∀ t x, t < s.ntask → x.conn = (s.tasks t).conn →
        (∀ t', t' < s.ntask → (upd s.tasks t x t').conn < s.nconn) ∧
        (∀ t', s.ntask ≤ t' → upd s.tasks t x t' = noTask) := by
      intro t x ht hx
      refine ⟨?_, ?_⟩
      · intro t' ht'
        by_cases e : t' = t
        · subst e; rw [upd_self, hx]; exact h3 _ ht
        · rw [upd_ne _ _ e]; exact h3 _ ht'
      · intro t' ht'
        rw [upd_ne _ _ (by omega)]; exact h4 _ ht'
    have hkill : (∀ t, t < s.ntask → (s.killLoop.tasks t).conn < s.nconn) ∧
        (∀ t, s.ntask ≤ t → s.killLoop.tasks t = noTask) := by
      refine ⟨?_, ?_⟩
      · intro t ht; rw [kill_tasks]; split
        · rw [abort_conn]; exact h3 t ht
        · exact h3 t ht
      · intro t ht; rw [kill_tasks, h4 t ht]; split <;> rfl
    cases step_Step hst <;> first
      | exact ⟨h1, h2, h3, h4⟩
      | (refine ⟨h1, h2, hkill.1, hkill.2⟩; done)
      | skip
    case connect hh =>
      refine ⟨?_, ?_, ?_, h4⟩
      · intro p hp; have := h1 p hp; simp only; omega
      · intro c hc
        simp only at hc ⊢
        rw [upd_ne _ _ (by omega)]; exact h2 c (by omega)
      · intro t ht; have := h3 t ht; simp only; omega
    case enqueue c doc ha hl =>
      refine ⟨?_, h2, h3, h4⟩
      intro p hp
      simp only [List.mem_append, List.mem_singleton] at hp
      rcases hp with hp | hp
      · exact h1 p hp
      · subst hp; exact halive c ha
    case sendFail c doc ha hl => exact ⟨h1, hupdc c _ (halive c ha), h3, h4⟩
    case recvEnd c ha => exact ⟨h1, hupdc c _ (halive c ha), h3, h4⟩
    case takeErr c r q hl hq =>
      exact ⟨h1, hupdc c _ (hlog hq hl), h3, h4⟩
    case takeBad c id v e q hl hq hd =>
      exact ⟨h1, hupdc c _ (hlog hq hl), h3, h4⟩
    case cancelHit c id t q hl hq ht =>
      by_cases hlt : t < s.ntask
      · have := hupdt t (s.tasks t).abort hlt (abort_conn _)
        exact ⟨h1, h2, this.1, this.2⟩
      · have : (s.tasks t).abort = s.tasks t := by rw [h4 t (by omega)]; rfl
        rw [this, upd_same]
        exact ⟨h1, h2, h3, h4⟩
    case takeStream c id v call q hl hq hd hs =>
      refine ⟨h1, h2, ?_, ?_⟩
      · intro t ht
        simp only at ht ⊢
        by_cases e : t = s.ntask
        · subst e; rw [upd_self]
          exact hlog hq hl
        · rw [upd_ne _ _ e]; exact h3 t (by omega)
      · intro t ht
        simp only at ht ⊢
        rw [upd_ne _ _ (by omega)]; exact h4 t (by omega)
    case methodOk c id call i hl ha => exact ⟨h1, hupdc c _ (halive c ha), h3, h4⟩
    case flush c r rs ha hc => exact ⟨h1, hupdc c _ (halive c ha), h3, h4⟩
    case flushFail c r rs ha hc => exact ⟨h1, hupdc c _ (halive c ha), h3, h4⟩
    case itemSend t x ht hn ha =>
      have := hupdt t { s.tasks t with pos := (s.tasks t).pos + 1 }
        (htask t (by rcases ht with h | h <;> rw [h] <;> simp)) rfl
      exact ⟨h1, hupdc _ _ (halive _ ha), this.1, this.2⟩
    case poll t ht =>
      have := hupdt t { s.tasks t with st := .running } (htask t (by simp [ht])) rfl
      exact ⟨h1, h2, this.1, this.2⟩
    case itemEnd t ht _ =>
      have := hupdt t { s.tasks t with st := .done }
        (htask t (by rcases ht with h | h <;> rw [h] <;> simp)) rfl
      exact ⟨h1, h2, this.1, this.2⟩
    case itemPanic t ht =>
      have := hupdt t { s.tasks t with st := .done }
        (htask t (by rcases ht with h | h <;> rw [h] <;> simp)) rfl
      exact ⟨h1, h2, this.1, this.2⟩
    case itemFail t x ht hn ha =>
      have := hupdt t { s.tasks t with pos := (s.tasks t).pos + 1, st := .done }
        (htask t (by rcases ht with h | h <;> rw [h] <;> simp)) rfl
      exact ⟨h1, h2, this.1, this.2⟩
    case pending t ht =>
      have := hupdt t { s.tasks t with st := .suspended } (htask t (by simp [ht])) rfl
      exact ⟨h1, h2, this.1, this.2⟩
    case pendingAborted t ht =>
      have := hupdt t { s.tasks t with st := .cancelled } (htask t (by simp [ht])) rfl
      exact ⟨h1, h2, this.1, this.2⟩

theorem repliesTo_eq_nil (sv : Service σ C) (b : σ) (c : Nat) (l : List (Nat × Input))
    (h : ∀ p ∈ l, p.1 ≠ c) : repliesTo sv c b l = [] := by
  induction l generalizing b with
  | nil => rfl
  | cons p l ih =>
    simp only [repliesTo]
    rw [if_neg (h p List.mem_cons_self), ih _ fun q hq => h q (List.mem_cons_of_mem _ hq)]
    rfl

/-- The direct replies recorded in a connection. -/
def Conn.replies (c : Conn) : List Response :=
  (c.produced.filter (fun p => p.1 == none)).map (·.2)

theorem send_replies_none (c : Conn) (r : Response) :
    (c.send none r).1.replies = if c.alive then c.replies ++ [r] else c.replies := by
  unfold Conn.replies; rw [Conn.send_produced]; split <;> simp

theorem send_replies_some (c : Conn) (t : Nat) (r : Response) :
    (c.send (some t) r).1.replies = c.replies := by
  unfold Conn.replies; rw [Conn.send_produced]; split <;> simp

theorem inv_replies {sv : Service σ C} {b : σ} {s : State σ C} (h : Reachable sv b s) :
    ∀ c, ((s.conns c).alive = true → (s.conns c).replies = repliesTo sv c b s.log) ∧
      (s.conns c).replies <+: repliesTo sv c b s.log := by
  refine Reachable.induct (P := fun s => ∀ c,
    ((s.conns c).alive = true → (s.conns c).replies = repliesTo sv c b s.log) ∧
      (s.conns c).replies <+: repliesTo sv c b s.log) ?_ ?_ h
  · intro c; simp [init, deadConn, Conn.replies, repliesTo]
  · intro s l s' hr ih hst
    have hb := inv_backend hr
    -- a connection replaced by one with the same replies that is not newly alive
    have hset : ∀ c x, x.replies = (s.conns c).replies →
        (x.alive = true → (s.conns c).alive = true) → ∀ c',
        ((upd s.conns c x c').alive = true →
          (upd s.conns c x c').replies = repliesTo sv c' b s.log) ∧
        (upd s.conns c x c').replies <+: repliesTo sv c' b s.log := by
      intro c x hx hal c'
      by_cases e : c' = c
      · subst e; rw [upd_self, hx]; exact ⟨fun ha => (ih c').1 (hal ha), (ih c').2⟩
      · rw [upd_ne _ _ e]; exact ih c'
    -- one more request without a reply
    have hnone : ∀ c0 i, (exec1 sv s.backend i).2 = none → ∀ c,
        ((s.conns c).alive = true →
          (s.conns c).replies = repliesTo sv c b (s.log ++ [(c0, i)])) ∧
        (s.conns c).replies <+: repliesTo sv c b (s.log ++ [(c0, i)]) := by
      intro c0 i hi c
      rw [repliesTo_snoc, ← hb, hi]
      simpa using ih c
    -- one more request with a reply, delivered if possible
    have hsome : ∀ c0 i r, (exec1 sv s.backend i).2 = some r → ∀ c,
        ((upd s.conns c0 ((s.conns c0).send none r).1 c).alive = true →
          (upd s.conns c0 ((s.conns c0).send none r).1 c).replies
            = repliesTo sv c b (s.log ++ [(c0, i)])) ∧
        (upd s.conns c0 ((s.conns c0).send none r).1 c).replies
          <+: repliesTo sv c b (s.log ++ [(c0, i)]) := by
      intro c0 i r hi c
      rw [repliesTo_snoc, ← hb, hi]
      by_cases e : c = c0
      · subst e
        rw [upd_self, send_replies_none, Conn.send_alive]
        simp only [if_true, Option.toList]
        split
        · rename_i ha
          have := (ih c).1 ha
          simp [this]
        · rename_i ha
          exact ⟨fun h => absurd h ha, (ih c).2.trans (List.prefix_append _ _)⟩
      · rw [upd_ne _ _ e, if_neg (Ne.symm e)]
        simpa using ih c
    cases step_Step hst <;> first
      | exact ih
      | skip
    case connect hh =>
      intro c
      by_cases e : c = s.nconn
      · subst e
        simp only [upd_self]
        have : repliesTo sv s.nconn b s.log = [] := by
          apply repliesTo_eq_nil
          intro p hp
          have := (inv_fresh hr).1 p ((inv_queue hr).2.subset hp)
          omega
        rw [this]; simp [freshConn, Conn.replies]
      · simp only [upd_ne _ _ e]; exact ih c
    case sendFail c doc ha hl => exact hset c _ rfl (by simp)
    case recvEnd c ha => exact hset c _ rfl (by simp)
    case flush c r rs ha hc => exact hset c _ rfl (fun _ => ha)
    case flushFail c r rs ha hc => exact hset c _ rfl (by simp)
    case itemSend t x ht hn ha => exact hset _ _ (send_replies_some _ _ _) (fun _ => ha)
    case cancelHit c id t q hl hq ht => exact hnone c _ rfl
    case cancelMiss c id q hl hq ht => exact hnone c _ rfl
    case takeStream c id v call q hl hq hd hs => exact hnone c _ (by simp [exec1, hd, hs])
    case takeErr c r q hl hq => exact hsome c _ r rfl
    case takeBad c id v e q hl hq hd => exact hsome c _ _ (by simp [exec1, hd, Response.mkError])
    case methodOk c id call i hl ha =>
      obtain ⟨v, rfl, hd, hs⟩ := inv_busy hr _ _ _ _ hl
      refine hsome c _ _ ?_
      rw [exec1_method hd hs]
    case methodFail c id call i hl ha =>
      obtain ⟨v, rfl, hd, hs⟩ := inv_busy hr _ _ _ _ hl
      intro c'
      simp only [kill_conns, kill_log]
      have := hsome c (.ok (.exec id v)) (Response.mkMethod id (sv.runMethod s.backend call).2) (by
        rw [exec1_method hd hs]) c'
      simpa [Conn.send, ha, upd_same] using this

/-- Channel and socket carry exactly what was produced. -/
theorem inv_chan {sv : Service σ C} {b : σ} {s : State σ C} (h : Reachable sv b s) :
    ∀ c, ((s.conns c).alive = true →
        (s.conns c).written ++ (s.conns c).chan = (s.conns c).produced.map (·.2)) ∧
      (s.conns c).written <+: (s.conns c).produced.map (·.2) := by
  let Q : Conn → Prop := fun x => (x.alive = true → x.written ++ x.chan = x.produced.map (·.2)) ∧
      x.written <+: x.produced.map (·.2)
  refine Reachable.induct (P := fun s => ∀ c, Q (s.conns c)) ?_ ?_ h
  · intro c; simp [Q, init, deadConn]
  · intro s l s' hr ih hst
    have hset : ∀ c x, Q x → ∀ c', Q (upd s.conns c x c') := by
      intro c x hx c'
      by_cases e : c' = c
      · subst e; rwa [upd_self]
      · rw [upd_ne _ _ e]; exact ih c'
    have hclose : ∀ c, Q (s.conns c).close := fun c => ⟨by simp, (ih c).2⟩
    have hsend : ∀ c f r, Q ((s.conns c).send f r).1 := by
      intro c f r
      unfold Conn.send
      split
      · rename_i ha
        have h1 := (ih c).1 ha
        refine ⟨fun _ => ?_, ?_⟩
        · simp [← h1]
        · simp only [List.map_append]
          exact (ih c).2.trans (List.prefix_append _ _)
      · exact ih c
    cases step_Step hst <;> first
      | exact ih
      | exact hset _ _ (hclose _)
      | exact hset _ _ (hsend _ _ _)
      | skip
    case connect => exact hset _ _ (by simp [Q, freshConn])
    case flush c r rs ha hc =>
      refine hset _ _ ?_
      have h1 := (ih c).1 ha
      refine ⟨fun _ => ?_, ?_⟩
      · simp [← h1, hc]
      · exact ⟨rs, by simp [← h1, hc]⟩

/-- Every task belongs to one started stream. -/
theorem inv_streams {sv : Service σ C} {b : σ} {s : State σ C} (h : Reachable sv b s) :
    (streams sv b s.log).length = s.ntask ∧
    ∀ t, t < s.ntask → (streams sv b s.log)[t]? =
      some ⟨(s.tasks t).conn, (s.tasks t).id, (s.tasks t).src⟩ := by
  refine Reachable.induct (P := fun s => (streams sv b s.log).length = s.ntask ∧
    ∀ t, t < s.ntask → (streams sv b s.log)[t]? =
      some ⟨(s.tasks t).conn, (s.tasks t).id, (s.tasks t).src⟩) ?_ ?_ h
  · exact ⟨rfl, fun t ht => absurd ht (by simp [init])⟩
  · intro s l s' hr ih hst
    have hb := inv_backend hr
    -- same streams, tasks only change position and state
    have hsame : ∀ f : Nat → Task, (∀ t, (f t).conn = (s.tasks t).conn ∧
        (f t).id = (s.tasks t).id ∧ (f t).src = (s.tasks t).src) →
        ∀ t, t < s.ntask → (streams sv b s.log)[t]? = some ⟨(f t).conn, (f t).id, (f t).src⟩ := by
      intro f hf t ht
      rw [ih.2 t ht, (hf t).1, (hf t).2.1, (hf t).2.2]
    have hupd : ∀ t x, (x.conn = (s.tasks t).conn ∧ x.id = (s.tasks t).id ∧
        x.src = (s.tasks t).src) → ∀ t', (upd s.tasks t x t').conn = (s.tasks t').conn ∧
        (upd s.tasks t x t').id = (s.tasks t').id ∧
        (upd s.tasks t x t').src = (s.tasks t').src := by
      intro t x hx t'
      by_cases e : t' = t
      · subst e; rwa [upd_self]
      · rw [upd_ne _ _ e]; exact ⟨rfl, rfl, rfl⟩
    have hkill : ∀ s1 : State σ C, ∀ t, (s1.killLoop.tasks t).conn = (s1.tasks t).conn ∧
        (s1.killLoop.tasks t).id = (s1.tasks t).id ∧
        (s1.killLoop.tasks t).src = (s1.tasks t).src := by
      intro s1 t; rw [kill_tasks]; split <;> simp
    have hnone : ∀ c i, starts sv s.backend c i = none →
        streams sv b (s.log ++ [(c, i)]) = streams sv b s.log := by
      intro c i hi; rw [streams_snoc, ← hb, hi]; simp
    cases step_Step hst <;> first
      | exact ih
      | exact ⟨ih.1, hsame _ (hkill s)⟩
      | exact ⟨ih.1, hsame _ (hupd _ _ ⟨rfl, rfl, rfl⟩)⟩
      | skip
    case takeErr c r q hl hq => simp only [hnone c (.error r) rfl]; exact ih
    case cancelHit c id t q hl hq ht =>
      simp only [hnone c (.ok (.cancelStream id)) rfl]
      exact ⟨ih.1, hsame _ (hupd _ _ ⟨by simp, by simp, by simp⟩)⟩
    case cancelMiss c id q hl hq ht =>
      simp only [hnone c (.ok (.cancelStream id)) rfl]; exact ih
    case takeBad c id v e q hl hq hd =>
      simp only [hnone c (.ok (.exec id v)) (by simp [starts, hd])]; exact ih
    case methodOk c id call i hl ha =>
      obtain ⟨v, rfl, hd, hs⟩ := inv_busy hr _ _ _ _ hl
      simp only [hnone c (.ok (.exec id v)) (by simp [starts, hd, hs])]; exact ih
    case methodFail c id call i hl ha =>
      obtain ⟨v, rfl, hd, hs⟩ := inv_busy hr _ _ _ _ hl
      simp only [kill_log, kill_ntask, hnone c (.ok (.exec id v)) (by simp [starts, hd, hs])]
      exact ⟨ih.1, hsame _ (hkill _)⟩
    case takeStream c id v call q hl hq hd hs =>
      have : starts sv s.backend c (.ok (.exec id v)) = some ⟨c, id, (sv.runStream s.backend call).2⟩ := by
        simp [starts, hd, hs]
      simp only
      rw [streams_snoc, ← hb, this]
      refine ⟨by simp [ih.1], ?_⟩
      intro t ht
      by_cases e : t = s.ntask
      · subst e
        rw [List.getElem?_append_right (by omega), ih.1]
        simp
      · rw [List.getElem?_append_left (by omega), ih.2 t (by omega)]
        simp [upd_ne _ _ e]

end Verif.Server
