import Verif.Props.Server
import Verif.Props.Wire

/-!
# C61: what remains on the server of streams that have ended and of clients that have left
-/

namespace Verif.Props
open Verif Verif.Server Verif.ServerSpec Verif.WireSpec

variable {σ C : Type}

/-- The full property: a stream that the server keeps track of has not ended, and its client is still connected. -/
def C61_statement (sv : Service σ C) (b : σ) : Prop :=
  ∀ s, Reachable sv b s → LoopAlive s → ∀ p ∈ s.subs, ¬ (s.tasks p.2).st.Stopped ∧ (s.conns (s.tasks p.2).conn).alive = true

/-- A connection that has ended does not come back. -/
theorem dead_stays {sv : Service σ C} {s s' : State σ C} {l : Label} {c : Nat} (hc : c < s.nconn) (hd : (s.conns c).alive = false)
    (h : step sv s l = some s') : (s'.conns c).alive = false := by
  have up : ∀ c' x, x.alive = (s.conns c').alive ∨ x.alive = false → (upd s.conns c' x c).alive = false := by
    intro c' x hx
    by_cases e : c = c'
    · subst e; rw [upd_self]; rcases hx with hx | hx <;> simp [hx, hd]
    · rw [upd_ne _ _ e]; exact hd
  cases step_Step h <;> first
    | exact hd
    | exact up _ _ (.inr rfl)
    | exact up _ _ (.inl (Conn.send_alive _ _ _))
    | exact up _ _ (.inl rfl)
    | skip
  case connect =>
    show (upd s.conns s.nconn freshConn c).alive = false
    rw [upd_ne _ _ (by omega)]
    exact hd

/-- The stream `t`, whose connection `c` has ended, has taken `n` items, or one more and ended. -/
structure Orphan (s : State σ C) (t c n : Nat) : Prop where
  started : t < s.ntask
  conn : (s.tasks t).conn = c
  known : c < s.nconn
  gone : (s.conns c).alive = false
  pos : (s.tasks t).pos = n ∨ (s.tasks t).pos = n + 1 ∧ (s.tasks t).st.Stopped

theorem stopped_cases {st : TaskSt} (h : st.Stopped) (h' : st = .running ∨ st = .runningAborted ∨ st = .suspended) : False := by
  rcases h with rfl | rfl <;> rcases h' with h | h | h <;> cases h

theorem Orphan.abort {s : State σ C} {t c n : Nat} (h : Orphan s t c n) :
    (s.tasks t).abort.conn = c ∧ ((s.tasks t).abort.pos = n ∨ (s.tasks t).abort.pos = n + 1 ∧ (s.tasks t).abort.st.Stopped) := by
  have e1 : (s.tasks t).abort.conn = (s.tasks t).conn := by unfold Task.abort; split <;> rfl
  have e2 : (s.tasks t).abort.pos = (s.tasks t).pos := by unfold Task.abort; split <;> rfl
  refine ⟨e1.trans h.conn, h.pos.imp (e2.trans ·) (fun h => ⟨e2.trans h.1, ?_⟩)⟩
  rw [abort_keeps h.2]
  exact h.2

theorem Orphan.step {sv : Service σ C} {s s' : State σ C} {l : Label} {t c n : Nat} (h : Orphan s t c n)
    (hst : step sv s l = some s') : Orphan s' t c n := by
  have hmono := ntask_mono hst
  have hg := dead_stays h.known h.gone hst
  have hn := nconn_mono hst
  suffices key : (s'.tasks t).conn = c ∧ ((s'.tasks t).pos = n ∨ (s'.tasks t).pos = n + 1 ∧ (s'.tasks t).st.Stopped) from
    ⟨Nat.lt_of_lt_of_le h.started hmono, key.1, Nat.lt_of_lt_of_le h.known hn, hg, key.2⟩
  have same : (s.tasks t).conn = c ∧ ((s.tasks t).pos = n ∨ (s.tasks t).pos = n + 1 ∧ (s.tasks t).st.Stopped) := ⟨h.conn, h.pos⟩
  have up : ∀ t' x, (t = t' → x.conn = c ∧ (x.pos = n ∨ x.pos = n + 1 ∧ x.st.Stopped)) →
      (upd s.tasks t' x t).conn = c ∧ ((upd s.tasks t' x t).pos = n ∨ (upd s.tasks t' x t).pos = n + 1 ∧ (upd s.tasks t' x t).st.Stopped) := by
    intro t' x hx
    by_cases e : t = t'
    · subst e; rw [upd_self]; exact hx rfl
    · rw [upd_ne _ _ e]; exact same
  have kill : ∀ s1 : State σ C, s1.tasks = s.tasks → (s1.killLoop.tasks t).conn = c ∧
      ((s1.killLoop.tasks t).pos = n ∨ (s1.killLoop.tasks t).pos = n + 1 ∧ (s1.killLoop.tasks t).st.Stopped) := by
    intro s1 e
    rw [kill_tasks, e]
    split
    · exact h.abort
    · exact same
  have live : ∀ {t'}, t = t' → (s.tasks t').st = .running ∨ (s.tasks t').st = .runningAborted ∨ (s.tasks t').st = .suspended →
      (s.tasks t').conn = c ∧ (s.tasks t').pos = n := by
    intro t' e hl
    subst e
    exact ⟨h.conn, h.pos.resolve_right (fun hp => stopped_cases hp.2 hl)⟩
  cases step_Step hst <;> first
    | exact same
    | exact kill _ rfl
    | skip
  case cancelHit => exact up _ _ (by rintro rfl; exact h.abort)
  case takeStream =>
    show (upd s.tasks s.ntask _ t).conn = c ∧ _
    simp only
    rw [upd_ne _ _ (by have := h.started; omega)]
    exact same
  case poll ht => exact up _ _ (fun e => ⟨(live e (.inr (.inr ht))).1, .inl (live e (.inr (.inr ht))).2⟩)
  case itemEnd ht hx => exact up _ _ (fun e => ⟨(live e (ht.imp id .inl)).1, .inl (live e (ht.imp id .inl)).2⟩)
  case itemSend t' x ht hx ha =>
    refine up _ _ (fun e => ?_)
    have := live e (ht.imp id .inl)
    rw [this.1, h.gone] at ha
    cases ha
  case itemFail t' x ht hx ha =>
    refine up _ _ (fun e => ?_)
    have := live e (ht.imp id .inl)
    exact ⟨this.1, .inr ⟨by simp [this.2], .inl rfl⟩⟩
  case itemPanic ht => exact up _ _ (fun e => ⟨(live e (ht.imp id .inl)).1, .inl (live e (ht.imp id .inl)).2⟩)
  case pending ht => exact up _ _ (fun e => ⟨(live e (.inl ht)).1, .inl (live e (.inl ht)).2⟩)
  case pendingAborted ht => exact up _ _ (fun e => ⟨(live e (.inr (.inl ht))).1, .inl (live e (.inr (.inl ht))).2⟩)

theorem Orphan.run {sv : Service σ C} {s s' : State σ C} {ls : List Label} {t c n : Nat} (h : Orphan s t c n)
    (hr : run sv s ls = some s') : Orphan s' t c n := by
  induction ls generalizing s with
  | nil => simp [Server.run] at hr; subst hr; exact h
  | cons l ls ih =>
    simp only [Server.run] at hr
    split at hr
    · exact ih (h.step ‹_›) hr
    · cases hr

/-- Connections that have ended get nothing any more. -/
theorem dead_silent {sv : Service σ C} {b : σ} {s s' : State σ C} {ls : List Label} {c : Nat} (hr : Reachable sv b s)
    (hc : c < s.nconn) (hd : (s.conns c).alive = false) (h : run sv s ls = some s') :
    (s'.conns c).produced = (s.conns c).produced := by
  induction ls generalizing s with
  | nil => simp [Server.run] at h; subst h; rfl
  | cons l ls ih =>
    simp only [Server.run] at h
    split at h
    · rename_i s1 h1
      rw [ih (hr.step h1) (Nat.lt_of_lt_of_le hc (nconn_mono h1)) (dead_stays hc hd h1) h]
      have up : ∀ c' x, (c = c' → x.produced = (s.conns c').produced) → (upd s.conns c' x c).produced = (s.conns c).produced := by
        intro c' x hx
        by_cases e : c = c'
        · rw [e, upd_self]; exact hx e
        · rw [upd_ne _ _ e]
      have snd : ∀ c' f r, c = c' → ((s.conns c').send f r).1.produced = (s.conns c').produced := by
        intro c' f r e
        subst e
        simp [Conn.send, hd]
      cases step_Step h1 <;> first
        | rfl
        | exact up _ _ (fun _ => rfl)
        | exact up _ _ (snd _ _ _)
        | skip
      case connect => exact up _ _ (fun e => absurd e (by omega))
    · cases h

/-- **C61, the streams of clients that have left.** Once the connection of a stream has ended: in every continuation the
stream takes at most one more item, and if it has taken one it has ended; whenever it is polled and yields or ends it has
ended; and nothing of it, or of anything else, goes to that connection any more. -/
theorem C61_partial {sv : Service σ C} {b : σ} {s : State σ C} (hr : Reachable sv b s) (t : Nat) (ht : t < s.ntask)
    (hd : (s.conns (s.tasks t).conn).alive = false) (ls : List Label) (s' : State σ C) (h : run sv s ls = some s') :
    (s'.tasks t).pos ≤ (s.tasks t).pos + 1 ∧
    ((s'.tasks t).pos ≠ (s.tasks t).pos → (s'.tasks t).st.Stopped) ∧
    (∀ s'', step sv s' (.item t) = some s'' → (s''.tasks t).st.Stopped) ∧
    ((s.tasks t).st.Stopped → (s'.tasks t).st.Stopped) ∧
    (s'.conns (s.tasks t).conn).produced = (s.conns (s.tasks t).conn).produced := by
  have hc := (inv_fresh hr).2.2.1 t ht
  have ho : Orphan s t (s.tasks t).conn (s.tasks t).pos := ⟨ht, rfl, hc, hd, .inl rfl⟩
  have ho' := ho.run h
  refine ⟨?_, ?_, ?_, fun hs => (run_stopped hr ht hs h).1, dead_silent hr hc hd h⟩
  · rcases ho'.pos with e | e <;> omega
  · intro hne
    rcases ho'.pos with e | e
    · exact absurd e hne
    · exact e.2
  · intro s'' hst
    cases step_Step hst with
    | itemEnd _ h1 h2 => simp [TaskSt.Stopped]
    | itemSend _ x h1 h2 h3 =>
      rw [ho'.conn, ho'.gone] at h3
      cases h3
    | itemFail _ x h1 h2 h3 => simp [TaskSt.Stopped]

/-- An id is in the table because of the request that started its stream, and no request has cancelled it since. -/
theorem active_cause (sv : Service σ C) (id t : Nat) : ∀ (l : List (Nat × Input)) (b : σ) (n : Nat) (m : Nat → Option Nat),
    active sv b n m l id = some t →
    (m id = some t ∧ ∀ c, (c, Except.ok (.cancelStream id)) ∉ l) ∨
    ∃ l₁ c i l₂ st, l = l₁ ++ (c, i) :: l₂ ∧ starts sv (replay sv b l₁) c i = some st ∧ st.id = id ∧
      ∀ c, (c, Except.ok (.cancelStream id)) ∉ l₂ := by
  intro l
  induction l with
  | nil => intro b n m h; exact .inl ⟨h, fun _ h => nomatch h⟩
  | cons p l ih =>
    intro b n m h
    obtain ⟨c, i⟩ := p
    simp only [active] at h
    have shift : (∃ l₁ c' i' l₂ st, l = l₁ ++ (c', i') :: l₂ ∧ starts sv (replay sv (exec1 sv b i).1 l₁) c' i' = some st ∧ st.id = id ∧
        ∀ c, (c, Except.ok (.cancelStream id)) ∉ l₂) →
        ∃ l₁ c' i' l₂ st, (c, i) :: l = l₁ ++ (c', i') :: l₂ ∧ starts sv (replay sv b l₁) c' i' = some st ∧ st.id = id ∧
          ∀ c, (c, Except.ok (.cancelStream id)) ∉ l₂ := by
      rintro ⟨l₁, c', i', l₂, st, rfl, h2, h3, h4⟩
      exact ⟨(c, i) :: l₁, c', i', l₂, st, rfl, h2, h3, h4⟩
    cases hst : starts sv b c i with
    | some st =>
      rw [hst] at h
      simp only at h
      rcases ih _ _ _ h with ⟨h1, h2⟩ | h1
      · split at h1
        · rename_i e
          exact .inr ⟨[], c, i, l, st, rfl, hst, e.symm, h2⟩
        · refine .inl ⟨h1, fun c' hm => ?_⟩
          rcases List.mem_cons.1 hm with e | e
          · injection e with _ e
            subst e
            simp [starts] at hst
          · exact h2 _ e
      · exact .inr (shift h1)
    | none =>
      rw [hst] at h
      have other : (∀ id', i ≠ .ok (.cancelStream id')) → active sv (exec1 sv b i).1 n m l id = some t →
          (m id = some t ∧ ∀ c', (c', Except.ok (.cancelStream id)) ∉ (c, i) :: l) ∨
          ∃ l₁ c' i' l₂ st, (c, i) :: l = l₁ ++ (c', i') :: l₂ ∧ starts sv (replay sv b l₁) c' i' = some st ∧ st.id = id ∧
            ∀ c, (c, Except.ok (.cancelStream id)) ∉ l₂ := by
        intro hno h
        rcases ih _ _ _ h with ⟨h1, h2⟩ | h1
        · refine .inl ⟨h1, fun c' hm => ?_⟩
          rcases List.mem_cons.1 hm with e | e
          · injection e with _ e
            exact hno _ e.symm
          · exact h2 _ e
        · exact .inr (shift h1)
      rcases i with r | ⟨id', v⟩ | id'
      · exact other (fun _ h => nomatch h) h
      · exact other (fun _ h => nomatch h) h
      · simp only at h
        rcases ih _ _ _ h with ⟨h1, h2⟩ | h1
        · split at h1
          · cases h1
          · rename_i hne
            refine .inl ⟨h1, fun c' hm => ?_⟩
            rcases List.mem_cons.1 hm with e | e
            · injection e with _ e
              injection e with e
              injection e with e
              exact hne e
            · exact h2 _ e
        · exact .inr (shift h1)

/-- **C61, cancelled streams.** Nothing remains of streams that have been cancelled: if every id that a stream was
started with has been cancelled since, the server keeps track of none. -/
theorem C61_cancelled_partial {sv : Service σ C} {b : σ} {s : State σ C} (hr : Reachable sv b s) (hl : LoopAlive s)
    (hc : ∀ l₁ c i l₂ st, s.log = l₁ ++ (c, i) :: l₂ → starts sv (replay sv b l₁) c i = some st →
      ∃ c', (c', .ok (.cancelStream st.id)) ∈ l₂) : s.subs = [] := by
  match e : s.subs with
  | [] => rfl
  | p :: r =>
    have hp := ((C37_bookkeeping hr hl p.1).2.1 p.2).1 (by rw [e]; exact List.mem_cons_self)
    rcases active_cause sv p.1 p.2 _ _ _ _ hp with ⟨h, _⟩ | ⟨l₁, c, i, l₂, st, h1, h2, h3, h4⟩
    · cases h
    · obtain ⟨c', hc'⟩ := hc l₁ c i l₂ st h1 h2
      rw [h3] at hc'
      exact absurd hc' (h4 c')

/-! ## It is false in general -/

/-- What the traces below lead to: no client is connected, every stream has ended, and the server still keeps
track of `n` of them. -/
structure Left (s : State σ C) (n : Nat) : Prop where
  idle : s.loop = .idle
  queue : s.queue = []
  held : s.held = true
  gone : ∀ c, (s.conns c).alive = false
  ended : ∀ t, t < s.ntask → (s.tasks t).st.Stopped
  tracked : s.subs.length = n
  ids : ∀ p ∈ s.subs, p.1 < n ∧ p.2 < s.ntask

theorem subsRemove_fresh {m : List (Nat × Nat)} {id : Nat} (h : ∀ p ∈ m, p.1 < id) : subsRemove m id = m := by
  unfold subsRemove
  rw [List.filter_eq_self]
  intro p hp
  have := h p hp
  simp only [bne_iff_ne, ne_eq]
  omega

/-- A client connects, calls a stream function and leaves; the stream ends at its next item. -/
theorem one_more {sv : Service σ C} {s : State σ C} {n : Nat} (hl : Left s n) {doc v : Json} {call : C}
    (hf : frameInput (some doc) = .ok (.exec n v)) (hd : sv.decode v = .ok call) (hs : sv.isStream call = true) :
    ∃ s', run sv s [.connect, .frame s.nconn (.text (some doc)), .take, .recvEnd s.nconn, .poll s.ntask,
      .item s.ntask] = some s' ∧ Left s' (n + 1) := by
  have hsub := subsRemove_fresh (fun p hp => (hl.ids p hp).1)
  -- the state after the first five steps
  have h5 : ∃ s5 : State σ C, run sv s [.connect, .frame s.nconn (.text (some doc)), .take, .recvEnd s.nconn,
      .poll s.ntask] = some s5 ∧ s5.loop = .idle ∧ s5.queue = [] ∧ s5.held = true ∧ (∀ c, (s5.conns c).alive = false) ∧
      (∀ t, t < s.ntask → s5.tasks t = s.tasks t) ∧ s5.ntask = s.ntask + 1 ∧ s5.subs = (n, s.ntask) :: s.subs ∧
      (s5.tasks s.ntask).st = .running := by
    simp only [run, step, hl.held, if_true, State.proxySend, hl.idle, hl.queue, hf, upd_self, freshConn, takeStep, hd, hs, List.nil_append,
      State.setConn, State.setTask, subsInsert, hsub]
    refine ⟨_, rfl, rfl, rfl, rfl, ?_, ?_, rfl, rfl, ?_⟩
    · intro c
      by_cases e : c = s.nconn
      · subst e; simp [Conn.close]
      · simp only [upd_ne _ _ e]; exact hl.gone c
    · intro t ht
      simp only [upd_ne _ _ (show t ≠ s.ntask by omega)]
    · simp
  obtain ⟨s5, r5, e1, e2, e3, e4, e5, e6, e7, e8⟩ := h5
  have h6 : ∃ s6, step sv s5 (.item s.ntask) = some s6 ∧ s6.loop = s5.loop ∧ s6.queue = s5.queue ∧ s6.held = s5.held ∧
      (∀ c, (s6.conns c).alive = false) ∧ (∀ t, t ≠ s.ntask → s6.tasks t = s5.tasks t) ∧ s6.ntask = s5.ntask ∧ s6.subs = s5.subs ∧
      (s6.tasks s.ntask).st.Stopped := by
    simp only [step, e8]
    split
    · refine ⟨_, rfl, rfl, rfl, rfl, e4, fun t ht => upd_ne _ _ ht, rfl, rfl, ?_⟩
      simp [State.setTask, TaskSt.Stopped]
    · simp only [Conn.send, e4, Bool.false_eq_true, if_false]
      refine ⟨_, rfl, rfl, rfl, rfl, ?_, fun t ht => upd_ne _ _ ht, rfl, rfl, ?_⟩
      · intro c
        simp only [State.setTask, State.setConn, upd_same]
        exact e4 c
      · simp [State.setTask, TaskSt.Stopped]
  obtain ⟨s6, r6, g1, g2, g3, g4, g5, g6, g7, g8⟩ := h6
  refine ⟨s6, ?_, ⟨g1.trans e1, g2.trans e2, g3.trans e3, g4, ?_, ?_, ?_⟩⟩
  · have : ([.connect, .frame s.nconn (.text (some doc)), .take, .recvEnd s.nconn, .poll s.ntask,
        .item s.ntask] : List Label) = [.connect, .frame s.nconn (.text (some doc)), .take, .recvEnd s.nconn,
        .poll s.ntask] ++ [.item s.ntask] := rfl
    rw [this, run_append, r5]
    simp [run, r6]
  · intro t ht
    by_cases e : t = s.ntask
    · rw [e]; exact g8
    · rw [g5 t e, e5 t (by omega)]
      exact hl.ended t (by omega)
  · rw [g7, e7, List.length_cons, hl.tracked]
  · intro p hp
    rw [g7, e7] at hp
    rw [g6, e6]
    rcases List.mem_cons.1 hp with rfl | hp
    · exact ⟨Nat.lt_succ_self _, Nat.lt_succ_self _⟩
    · have := hl.ids p hp
      omega

theorem frame_of_decode {doc : Json} {r : Request} (h : Request.decode doc = .ok r) : frameInput (some doc) = .ok r := by
  simp only [frameInput, h]

/-- However many: clients that come, call a stream function once and leave without cancelling, make the server keep
track of any number of streams (up to the number of ids), although every client has left and every stream has ended. -/
theorem C61_leak (sv : Service σ C) (b : σ) {ns m : Str} {args : List Json} {call : C}
    (hd : sv.decode (callValue ns m (args.map Json.toValue)) = .ok call) (hs : sv.isStream call = true) (n : Nat) (hn : n ≤ 2 ^ 64) :
    ∃ s, Reachable sv b s ∧ LoopAlive s ∧ (∀ c, (s.conns c).alive = false) ∧ (∀ t, t < s.ntask → (s.tasks t).st.Stopped) ∧
      s.subs.length = n := by
  have key : ∀ k, k ≤ n → ∃ s, Reachable sv b s ∧ Left s k := by
    intro k
    induction k with
    | zero =>
      intro _
      exact ⟨init b, ⟨[], rfl⟩, rfl, rfl, rfl, fun _ => rfl, fun _ h => absurd h (Nat.not_lt_zero _), rfl, fun _ h => nomatch h⟩
    | succ k ih =>
      intro hk
      obtain ⟨s, hr, hl⟩ := ih (Nat.le_of_lt hk)
      obtain ⟨s', h, hl'⟩ := one_more hl (doc := clientMessage k ns m args) (frame_of_decode (C23_client_message k ns m args (Nat.lt_of_lt_of_le hk hn))) hd hs
      exact ⟨s', hr.run h, hl'⟩
  obtain ⟨s, hr, hl⟩ := key n (Nat.le_refl n)
  exact ⟨s, hr, alive_of_idle hl.idle, hl.gone, hl.ended, hl.tracked⟩

/-- C61 is false: nothing is left running, but the server keeps track of a stream. -/
theorem C61_violated : ¬ C61_statement Demo.sv [0] := by
  intro h
  obtain ⟨s, hr, hl, _, hst, hlen⟩ := C61_leak Demo.sv [0] (ns := lit "Counter") (m := lit "ticks") (args := [.num (.int 1)])
    (call := ⟨0, 1, [1]⟩) rfl rfl 1 (by decide)
  match e : s.subs, hlen with
  | [p], _ =>
    have hp : p ∈ s.subs := by rw [e]; exact List.mem_singleton.2 rfl
    exact (h s hr hl p hp).1 (hst p.2 ((inv_subs hr).2.1 p hp).1)

theorem log_mono {sv : Service σ C} {s s' : State σ C} {l : Label} (h : step sv s l = some s') : ∃ r, s'.log = s.log ++ r := by
  cases step_Step h <;> first | exact ⟨[], (List.append_nil _).symm⟩ | exact ⟨_, rfl⟩

theorem run_log_mono {sv : Service σ C} {s s' : State σ C} {ls : List Label} (h : run sv s ls = some s') :
    ∃ r, s'.log = s.log ++ r := by
  induction ls generalizing s with
  | nil => simp [run] at h; subst h; exact ⟨[], (List.append_nil _).symm⟩
  | cons l ls ih =>
    simp only [run] at h
    split at h
    · rename_i s1 h1
      obtain ⟨r, hr⟩ := log_mono h1
      obtain ⟨r', hr'⟩ := ih h
      exact ⟨r ++ r', by rw [hr', hr, List.append_assoc]⟩
    · cases h

/-- **C61, streams that wait.** The server never ends a stream because its client has left: whatever else happens, a
stream that waits for its next item goes on waiting until it is polled, a request cancels its id, or the server task
ends. -/
theorem C61_waiting {sv : Service σ C} {b : σ} {s s' : State σ C} (hr : Reachable sv b s) (t : Nat) (ht : t < s.ntask)
    (hw : (s.tasks t).st = .suspended) (ls : List Label) (h : run sv s ls = some s') (hp : .poll t ∉ ls) (hl : LoopAlive s')
    (hc : ∀ c, (c, Except.ok (.cancelStream (s.tasks t).id)) ∉ s'.log.drop s.log.length) : s'.tasks t = s.tasks t := by
  suffices key : ∀ (ls : List Label) (s₁ : State σ C), Reachable sv b s₁ → s₁.tasks t = s.tasks t → t < s₁.ntask →
      (∃ r, s₁.log = s.log ++ r) → run sv s₁ ls = some s' → .poll t ∉ ls → s'.tasks t = s.tasks t from
    key ls s hr rfl ht ⟨[], (List.append_nil _).symm⟩ h hp
  intro ls
  induction ls with
  | nil => intro s₁ _ e _ _ h _; simp [run] at h; subst h; exact e
  | cons l ls ih =>
    intro s₁ hr₁ e ht₁ hlog h hp
    simp only [run] at h
    split at h
    · rename_i s₂ h₁
      obtain ⟨r₀, hlog⟩ := hlog
      obtain ⟨r₁, hlog₁⟩ := log_mono h₁
      obtain ⟨r₂, hlog₂⟩ := run_log_mono h
      refine ih s₂ (hr₁.step h₁) ?_ (Nat.lt_of_lt_of_le ht₁ (ntask_mono h₁)) ⟨r₀ ++ r₁, by rw [hlog₁, hlog, List.append_assoc]⟩ h
        (fun hm => hp (List.mem_cons_of_mem _ hm))
      have up : ∀ t' x, t ≠ t' → upd s₁.tasks t' x t = s.tasks t := fun t' x hne => (upd_ne _ _ hne).trans e
      have busy : ∀ {t'}, (s₁.tasks t').st = .running ∨ (s₁.tasks t').st = .runningAborted → t ≠ t' := by
        rintro t' ht' rfl
        rw [e, hw] at ht'
        rcases ht' with h | h <;> cases h
      have dead : ∀ s₃ : State σ C, s₂ = s₃.killLoop → False := by
        intro s₃ e
        subst e
        exact (run_dead (show ¬ LoopAlive s₃.killLoop from fun h => h) h).1 hl
      cases step_Step h₁ <;> first
        | exact e
        | exact (dead _ rfl).elim
        | skip
      case cancelHit c id t' q hi hq hg =>
        refine up _ _ ?_
        rintro rfl
        have hm := (inv_subs hr₁).2.1 _ (mem_of_subsGet hg)
        have hid : (s.tasks t).id = id := by rw [← e]; exact hm.2
        refine hc c ?_
        rw [hlog₂]
        simp only
        rw [hlog, hid]
        simp
      case takeStream => exact up _ _ (by omega)
      case poll t' _ => exact up _ _ (by rintro rfl; exact hp List.mem_cons_self)
      case itemEnd ht' _ => exact up _ _ (busy ht')
      case itemSend ht' _ _ => exact up _ _ (busy ht')
      case itemFail ht' _ _ => exact up _ _ (busy ht')
      case itemPanic ht' => exact up _ _ (busy ht')
      case pending ht' => exact up _ _ (busy (.inl ht'))
      case pendingAborted ht' => exact up _ _ (busy (.inr ht'))
    · cases h

/-- A case: client 0 leaves, client 1 calls a method. The stream of client 0 still waits. -/
example : ∃ s s', Reachable Demo.sv [0] s ∧ 0 < s.ntask ∧ (s.tasks 0).st = .suspended ∧
    run Demo.sv s [.recvEnd 0, .connect, Demo.callF 1 "add" 3 10, .take, .methodDone] = some s' ∧ LoopAlive s' ∧
    (s'.conns (s.tasks 0).conn).alive = false ∧ s'.log.length = 2 ∧ (s'.tasks 0).st = .suspended :=
  ⟨_, _, ⟨[.connect, Demo.callF 0 "ticks" 3 10, .take], rfl⟩, by decide, rfl, rfl, trivial, rfl, rfl, rfl⟩

/-- A case of `C61_partial`: client 0 leaves while its stream runs; the stream takes one more item and has ended. -/
example : ∃ s s', Reachable Demo.sv [0] s ∧ 0 < s.ntask ∧ (s.conns (s.tasks 0).conn).alive = false ∧ (s.tasks 0).pos = 1 ∧
    run Demo.sv s [.item 0] = some s' ∧ (s'.tasks 0).pos = 2 ∧ (s'.tasks 0).st = .done :=
  ⟨_, _, ⟨[.connect, Demo.callF 0 "ticks" 3 10, .take, .poll 0, .item 0, .recvEnd 0], rfl⟩, by decide, rfl, rfl, rfl, rfl, rfl⟩

/-- A case of `C61_cancelled_partial`: both streams have been cancelled. -/
example : ∃ s, run Demo.sv Demo.init [.connect, Demo.callF 0 "ticks" 3 10, .take, Demo.callF 0 "ticks" 4 20, .take,
    Demo.cancelF 0 3, .take, Demo.cancelF 0 4, .take] = some s ∧ LoopAlive s ∧ (streams Demo.sv [0] s.log).length = 2 ∧ s.subs = [] :=
  ⟨_, rfl, trivial, rfl, rfl⟩

end Verif.Props
