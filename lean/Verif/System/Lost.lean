import Verif.System.Drive
import Verif.Spec.Lost

/-!
# The composed system: lost connections (proof helpers)
-/

namespace Verif.System
open Verif Verif.ServerSpec Verif.SystemSpec

variable {σ C : Type}

/-- The socket is closing or closed. -/
def Gone (x : Client.State) (k : Nat) : Prop := (x.socks k).st = .closing ∨ (x.socks k).st = .closed

theorem gone_upd {f : Nat → Client.Sock} {k j : Nat} {y : Client.Sock}
    (h : (f k).st = .closing ∨ (f k).st = .closed) (hj : k = j → y.st = .closing ∨ y.st = .closed) :
    (Client.upd f j y k).st = .closing ∨ (Client.upd f j y k).st = .closed := by
  by_cases e : k = j
  · subst e; rw [Client.upd_self]; exact hj rfl
  · rw [Client.upd_ne _ _ e]; exact h

theorem gone_close {x : Client.State} {k : Nat} (h : Gone x k) : Gone x.close k := by
  unfold Client.State.close Gone
  split
  · refine gone_upd h ?_
    intro e
    exact Client.Sock.close_st _
  · exact h

theorem gone_reopen {x : Client.State} {k : Nat} (h : Gone x k) : Gone x.reopen k := by
  have := gone_close h
  unfold Client.State.reopen
  simp only
  split <;> exact this

theorem gone_unsubscribe {x : Client.State} {k : Nat} (j : Nat) (h : Gone x k) : Gone (x.unsubscribe j) k := by
  unfold Client.State.unsubscribe
  simp only
  split
  · exact gone_close h
  · exact h

theorem gone_finish (l : List Nat) : ∀ {x : Client.State} {k : Nat}, Gone x k → Gone (x.finish l) k := by
  induction l with
  | nil => intro x k h; exact h
  | cons j l ih => intro x k h; exact ih (gone_unsubscribe j h)

theorem gone_open {x : Client.State} {k : Nat} (hk : k < x.nsock) (h : Gone x k) : Gone x.open_ k := by
  unfold Client.State.open_ Gone
  split
  · exact h
  · exact gone_upd h (by intro e; omega)

theorem gone_openAndSend {x : Client.State} {k : Nat} (m : Client.Msg) (hk : k < x.nsock) (h : Gone x k) :
    Gone (x.openAndSend m) k := by
  have ho := gone_open hk h
  unfold Client.State.openAndSend
  split
  · exact h
  · simp only
    split
    · refine gone_upd ho ?_
      intro e
      subst e
      exact ho
    · exact ho

/-- A socket that is closing or closed is never opened again. -/
theorem gone_step {x y : Client.State} {l : Client.Label} (hr : Client.Reachable x)
    (h : Client.step x l = some y) {k : Nat} (hk : k < x.nsock) (hg : Gone x k) : Gone y k := by
  have hcall : ∀ j id d, Gone (x.call j id d).1 k := by
    intro j id d
    unfold Gone
    rw [Client.State.call_socks]; exact hg
  cases Client.step_Step h with
  | request ns m a =>
    exact gone_openAndSend _ hk hg
  | subscribe ns m a =>
    exact gone_openAndSend _ hk hg
  | attach => exact hg
  | detach j => exact gone_unsubscribe j hg
  | opened j hp hj =>
    rw [Client.foldl_openAndSend_ready (Client.onOpen_ready (Client.inv_conn hr) hj)]
    unfold Gone Client.State.onOpen
    refine gone_upd hg ?_
    intro e
    subst e
    rcases hg with e | e <;> rw [e] at hj <;> cases hj
  | failed j hp hj =>
    exact gone_reopen (gone_upd hg (fun _ => .inr rfl))
  | clean j hp hj hw =>
    exact gone_reopen (gone_upd hg (fun _ => .inr rfl))
  | closing j => exact gone_upd hg (fun _ => Client.Sock.close_st _)
  | method => exact hg
  | stream => exact hg
  | error => exact hg
  | garbage => exact hg
  | visitEnd id d cu se hp hn => exact gone_finish se (x := { x with phase := .idle }) hg
  | visit id d cu se j hp hn => exact hcall j id d
  | visitThrow id d cu se j hp hn =>
    exact gone_finish se (x := { (x.call j id d).1 with phase := .idle, threw := true }) (hcall j id d)
  | timer => exact gone_open hk hg

/-- The client is not delivering a message with this id. -/
def NotDelivering (x : Client.State) (id : Nat) : Prop :=
  ∀ d cu se, x.phase ≠ .delivering id d cu se

/-- What the closures comparing with `id` have got in `y` is what they had got in `x`; new ones have got nothing. -/
def SameGot (x y : Client.State) (id : Nat) : Prop :=
  ∀ j, (y.subs j).id = id → j < y.nsub → (y.subs j).got = if j < x.nsub then (x.subs j).got else []

theorem sameGot_step {x y : Client.State} {l : Client.Label} {id : Nat} (h : Client.step x l = some y)
    (hd : NotDelivering x id)
    (hm : ∀ k d, l ≠ .message k (.method id d) ∧ l ≠ .message k (.stream id d)) :
    NotDelivering y id ∧ SameGot x y id := by
  have same : ∀ (z : Client.State), z.phase = x.phase → (∀ j, (z.subs j).got = (x.subs j).got) →
      z.nsub = x.nsub → NotDelivering z id ∧ SameGot x z id := by
    intro z h1 h2 h3
    refine ⟨fun d cu se e => hd d cu se (h1 ▸ e), fun j _ hj => ?_⟩
    rw [if_pos (h3 ▸ hj)]; exact h2 j
  have add : ∀ (z : Client.State) (s0 : Client.Sub), s0.got = [] → z.phase = x.phase →
      z.subs = Client.upd x.subs x.nsub s0 → z.nsub = x.nsub + 1 → NotDelivering z id ∧ SameGot x z id := by
    intro z s0 h0 h1 h2 h3
    refine ⟨fun d cu se e => hd d cu se (h1 ▸ e), fun j _ hj => ?_⟩
    rw [h2]
    by_cases e : j = x.nsub
    · rw [e, Client.upd_self, if_neg (Nat.lt_irrefl _)]; exact h0
    · rw [Client.upd_ne _ _ e, if_pos (by omega)]
  have unsub : ∀ (z : Client.State) j j', ((z.unsubscribe j).subs j').got = (z.subs j').got := by
    intro z j j'
    rw [Client.State.unsubscribe_subs]
    by_cases e : j' = j
    · subst e; rw [Client.upd_self]
    · rw [Client.upd_ne _ _ e]
  have fin : ∀ (z : Client.State) (se : List Nat), z.phase = .idle →
      (∀ j, (z.subs j).id = id → (z.subs j).got = (x.subs j).got) → z.nsub = x.nsub →
      NotDelivering (z.finish se) id ∧ SameGot x (z.finish se) id := by
    intro z se h1 h2 h3
    refine ⟨?_, ?_⟩
    · intro d cu se' e
      rw [Client.State.finish_phase, h1] at e; cases e
    · intro j hj hlt
      obtain ⟨a, _, b, _⟩ := Client.finish_got z se j
      rw [Client.State.finish_nsub, h3] at hlt
      rw [if_pos hlt, a]
      exact h2 j (b ▸ hj)
  have call : ∀ j d id', id' ≠ id → ∀ j', (x.subs j').id = id →
      ((x.call j id' d).1.subs j').got = (x.subs j').got := by
    intro j d id' hne j' hj'
    by_cases e : j' = j
    · subst e
      unfold Client.State.call
      rw [if_neg (by rw [hj']; exact Ne.symm hne)]
    · rw [Client.call_subs_other x id' d e]
  have idOf : ∀ j d id' j', ((x.call j id' d).1.subs j').id = (x.subs j').id :=
    fun j d id' j' => (Client.call_sub x j id' j' d).2.1
  cases Client.step_Step h with
  | request ns m a =>
    exact add _ _ rfl (by simp [Client.State.request, Client.State.addSub, Client.State.issue])
      (by simp only [Client.State.request, Client.State.openAndSend_subs]; rfl)
      (by simp only [Client.State.request, Client.State.openAndSend_nsub]; rfl)
  | subscribe ns m a =>
    refine same _ ?_ ?_ ?_
    · simp [Client.State.subscribe, Client.State.issue]
    · intro j; simp [Client.State.subscribe, Client.State.issue]
    · simp [Client.State.subscribe, Client.State.issue]
  | attach => exact add _ _ rfl rfl rfl rfl
  | detach j => exact same _ (by simp) (unsub x j) (by simp)
  | opened j hp hj =>
    refine same _ ?_ ?_ ?_
    · rw [Client.State.foldl_openAndSend_phase]; rfl
    · intro j'; rw [Client.State.foldl_openAndSend_subs]; rfl
    · rw [Client.State.foldl_openAndSend_nsub]; rfl
  | failed => exact same _ (by simp [Client.State.onError]) (fun j => by simp [Client.State.onError]) (by simp [Client.State.onError])
  | clean => exact same _ (by simp [Client.State.goneClean]) (fun j => by simp [Client.State.goneClean]) (by simp [Client.State.goneClean])
  | closing => exact same _ rfl (fun _ => rfl) rfl
  | method k id' d hp hk =>
    refine ⟨?_, fun j _ hj => ?_⟩
    · intro d' cu se e
      simp only [Client.State.receive, Client.Phase.delivering.injEq] at e
      exact (hm k d).1 (by rw [e.1])
    · have hj : j < x.nsub := hj
      rw [if_pos hj]; rfl
  | stream k id' d hp hk =>
    refine ⟨?_, fun j _ hj => ?_⟩
    · intro d' cu se e
      simp only [Client.State.receive, Client.Phase.delivering.injEq] at e
      exact (hm k d).2 (by rw [e.1])
    · have hj : j < x.nsub := hj
      rw [if_pos hj]; rfl
  | error => exact same _ rfl (fun _ => rfl) rfl
  | garbage => exact same _ rfl (fun _ => rfl) rfl
  | visitEnd id' d cu se hp hn => exact fin _ se rfl (fun _ _ => rfl) rfl
  | visit id' d cu se j hp hn =>
    have hne : id' ≠ id := by rintro rfl; exact hd _ _ _ hp
    refine ⟨?_, fun j' hj' hlt => ?_⟩
    · intro d' cu' se' e
      simp only [Client.Phase.delivering.injEq] at e
      exact hne e.1
    · have hlt : j' < x.nsub := by simpa using hlt
      rw [if_pos hlt]
      exact call j d id' hne j' ((idOf j d id' j').symm.trans hj')
  | visitThrow id' d cu se j hp hn =>
    have hne : id' ≠ id := by rintro rfl; exact hd _ _ _ hp
    exact fin { (x.call j id' d).1 with phase := .idle, threw := true } se rfl
      (fun j' hj' => call j d id' hne j' ((idOf j d id' j').symm.trans hj')) (by simp)
  | timer => exact same _ (by simp) (fun _ => by simp) (by simp)

theorem SameGot.trans {x y z : Client.State} {id : Nat} {l : Client.Label} (h : SameGot x y id) (h' : SameGot y z id)
    (hs : Client.step y l = some z) (hn : x.nsub ≤ y.nsub) : SameGot x z id := by
  intro j hj hlt
  rw [h' j hj hlt]
  by_cases e : j < y.nsub
  · rw [if_pos e]
    exact h j ((Client.step_sub hs e).2.2.1 ▸ hj) e
  · rw [if_neg e, if_neg (by omega)]

/-- Nothing comes for a message whose socket is gone. -/
theorem lost_run {sv : Service σ C} {b : σ} {i k : Nat} {m : Client.Msg} {ls : List Label} : ∀ {s s' : State σ C},
    Reachable sv b s → (k, m) ∈ (s.clients i).sent → Gone (s.clients i) k → k < (s.clients i).nsock →
    NotDelivering (s.clients i) m.id → run sv s ls = some s' → (s'.clients i).calls.length ≤ 2 ^ 53 →
    Gone (s'.clients i) k ∧ SameGot (s.clients i) (s'.clients i) m.id ∧
      ClientSpec.dataOf m.id (s'.clients i).received = ClientSpec.dataOf m.id (s.clients i).received := by
  induction ls with
  | nil =>
    intro s s' hr hs hg hk hd h hn
    simp only [run, Option.some.injEq] at h
    subst h
    exact ⟨hg, fun j _ hj => by rw [if_pos hj], rfl⟩
  | cons l ls ih =>
    intro s s' hr hs hg hk hd h hn
    simp only [run] at h
    cases hst : step sv s l with
    | none => rw [hst] at h; cases h
    | some t =>
      rw [hst] at h
      have hnt : (t.clients i).calls.length ≤ 2 ^ 53 := Nat.le_trans (run_clients h i).length_le hn
      -- a step of client `i`
      have hclient : ∀ l' x (f : Nat → Nat), t = { s.setClient i x with down := f } →
          Client.step (s.clients i) l' = some x →
          (∀ k d, l' ≠ .message k (.method m.id d) ∧ l' ≠ .message k (.stream m.id d)) →
          ClientSpec.dataOf m.id x.received = ClientSpec.dataOf m.id (s.clients i).received →
          Gone (s'.clients i) k ∧ SameGot (s.clients i) (s'.clients i) m.id ∧
          ClientSpec.dataOf m.id (s'.clients i).received = ClientSpec.dataOf m.id (s.clients i).received := by
        intro l' x f ht hx hm hrec
        have hti : t.clients i = x := by rw [ht]; exact setClient_self s i x
        obtain ⟨hd', hsg⟩ := sameGot_step hx hd hm
        have hk' : k < (t.clients i).nsock := by
          rw [hti]; exact Nat.lt_of_lt_of_le hk (client_nsock (hr.client i) hx)
        obtain ⟨r1, r2, r3⟩ := ih (hr.step hst) (by rw [hti]; exact (client_sent (hr.client i) hx).subset hs)
          (by rw [hti]; exact gone_step (hr.client i) hx hk hg) hk' (by rw [hti]; exact hd') h hn
        obtain ⟨cl, hcl⟩ := run_client i h
        refine ⟨r1, ?_, r3.trans (by rw [hti]; exact hrec)⟩
        rw [hti] at r2 hcl
        intro j hj hlt
        rw [r2 j hj hlt]
        by_cases e : j < x.nsub
        · rw [if_pos e]
          exact hsg j ((Client.run_sub hcl e).2.2.1 ▸ hj) e
        · rw [if_neg e, if_neg]
          intro e'
          exact e (Client.step_sub hx e').1
      -- all other steps
      have hother : t.clients i = s.clients i →
          Gone (s'.clients i) k ∧ SameGot (s.clients i) (s'.clients i) m.id ∧
          ClientSpec.dataOf m.id (s'.clients i).received = ClientSpec.dataOf m.id (s.clients i).received := by
        intro e
        have := ih (hr.step hst) (by rw [e]; exact hs) (by rw [e]; exact hg) (by rw [e]; exact hk) (by rw [e]; exact hd) h hn
        rw [e] at this
        exact this
      cases step_Move hst with
      | client j l' x hx hl =>
        by_cases e : i = j
        · subst e
          exact hclient l' x _ rfl hx (fun k d => ⟨hl k _, hl k _⟩) (by rw [client_received hx hl])
        · exact hother (setClient_ne _ _ e)
      | server => exact hother rfl
      | foreign => exact hother rfl
      | accept => exact hother rfl
      | deliver => exact hother rfl
      | respond c j k' r x ho hm hx =>
        by_cases e : i = j
        · subst e
          have hpay : ∀ p, payload r = some p → p.1 ≠ m.id := by
            intro p hp e
            obtain ⟨m', hm', e'⟩ := written_id hr ho (List.mem_of_getElem? hm) hp
            have hns : (s.clients i).calls.length ≤ 2 ^ 53 :=
              Nat.le_trans (calls_back hst i).length_le hnt
            obtain ⟨hkk, _⟩ := sent_unique (hr.client i) hns hm' (sentOn_sent.2 hs) (e'.trans e)
            subst hkk
            have hop : ((s.clients i).socks k').st = .opened := by
              cases r <;> simp only [incoming] at hx <;> cases Client.step_Step hx <;> assumption
            rcases hg with hg | hg <;> rw [hg] at hop <;> cases hop
          refine hclient _ x _ rfl hx ?_ ?_
          · intro k d
            constructor
            · intro he
              cases r <;> simp only [incoming, Client.Label.message.injEq, Client.Incoming.method.injEq, reduceCtorEq, and_false] at he
              exact hpay _ rfl he.2.1
            · intro he
              cases r <;> simp only [incoming, Client.Label.message.injEq, Client.Incoming.stream.injEq, reduceCtorEq, and_false] at he
              exact hpay _ rfl he.2.1
          · rw [(client_message hx).1]
            unfold ClientSpec.dataOf
            rw [List.filter_append]
            have : (payload r).toList.filter (fun p => decide (p.1 = m.id)) = [] := by
              cases hp : payload r with
              | none => rfl
              | some p => simp [hpay p hp]
            rw [this, List.append_nil]
        · exact hother (setClient_ne _ _ e)

/-! ## Requests on a connection that is alive -/

theorem orphans_step {sv : Service σ C} {s s' : State σ C} {x : Server.State σ C} {l : Server.Label}
    (hx : Server.step sv s.server l = some x) (hs : s'.server = x) (hl : LoopAlive s.server) (ho : NoOrphans s)
    (h : l = .take ∨ l = .methodDone ∨ (∃ c, l = .flush c) ∨ ∃ c f, l = .frame c f) :
    LoopAlive s'.server ∧ NoOrphans s' ∧ ∀ c, (s.server.conns c).alive = true → (s'.server.conns c).alive = true := by
  subst hs
  have hal : LoopAlive s'.server := by
    by_cases hd : LoopAlive s'.server
    · exact hd
    · rcases server_dies hx hl hd with e | e | e | ⟨_, c, id, call, i, e1, e2⟩
      · subst e; simp at h
      · subst e; simp at h
      · rw [e.1] at h; simp at h
      · rw [ho.2 _ _ _ _ e1] at e2; cases e2
  have hcs : ∀ c, (s.server.conns c).alive = true → (s'.server.conns c).alive = true := by
    intro c
    refine server_alive hx hal c ?_ ?_ <;> · rintro rfl; simp at h
  refine ⟨hal, ⟨?_, ?_⟩, hcs⟩
  · intro p hp
    have hq : p ∈ s.server.queue ∨ (s.server.conns p.1).alive = true := by
      generalize s'.server = y at hx hp
      cases Server.step_Step hx with
      | enqueue c doc h' =>
        rcases List.mem_append.1 hp with hp | hp
        · exact .inl hp
        · rw [List.mem_singleton] at hp; subst hp; exact .inr h'
      | takeErr _ _ _ _ e => exact .inl (by rw [e]; exact List.mem_cons_of_mem _ hp)
      | cancelHit _ _ _ _ _ e => exact .inl (by rw [e]; exact List.mem_cons_of_mem _ hp)
      | cancelMiss _ _ _ _ e => exact .inl (by rw [e]; exact List.mem_cons_of_mem _ hp)
      | takeBad _ _ _ _ _ _ e => exact .inl (by rw [e]; exact List.mem_cons_of_mem _ hp)
      | takeStream _ _ _ _ _ _ e => exact .inl (by rw [e]; exact List.mem_cons_of_mem _ hp)
      | takeMethod _ _ _ _ _ _ e => exact .inl (by rw [e]; exact List.mem_cons_of_mem _ hp)
      | methodFail _ _ _ _ _ => simp [Server.State.killLoop] at hp
      | _ => first | exact .inl hp | (simp at h; done)
    rcases hq with hq | hq
    · exact hcs _ (ho.1 p hq)
    · exact hcs _ hq
  · intro c id call inp hb
    refine hcs c ?_
    generalize s'.server = y at hx hb
    have keep : y.loop = s.server.loop → (s.server.conns c).alive = true :=
      fun e => ho.2 _ _ _ _ (e ▸ hb)
    cases Server.step_Step hx with
    | takeMethod c' id' v call' q _ e =>
      simp only [Server.Loop.busy.injEq] at hb
      rw [← hb.1]
      exact ho.1 (c', _) (by rw [e]; exact List.mem_cons_self)
    | methodOk => cases hb
    | methodFail => simp [Server.State.killLoop] at hb
    | takePanic => simp at h
    | methodPanic => simp at h
    | loopExit => simp at h
    | _ => exact keep rfl

theorem finish_open (l : List Nat) : ∀ {x : Client.State} {j k : Nat}, j ∈ (x.finish l).live →
    (x.socks k).st = .opened → ((x.finish l).socks k).st = .opened := by
  have mono : ∀ (l : List Nat) (x : Client.State) j, j ∈ (x.finish l).live → j ∈ x.live := by
    intro l
    induction l with
    | nil => intro x j h; exact h
    | cons a l ih =>
      intro x j h
      have := ih _ _ h
      rw [Client.State.unsubscribe_live] at this
      exact (List.mem_filter.1 this).1
  induction l with
  | nil => intro x j k _ h; exact h
  | cons a l ih =>
    intro x j k hj h
    refine ih hj ?_
    have h1' : j ∈ (x.unsubscribe a).live := mono l _ _ hj
    rw [Client.State.unsubscribe_live] at h1'
    unfold Client.State.unsubscribe
    simp only
    split
    · rename_i e
      rw [e] at h1'; cases h1'
    · exact h

/-- Delivering does not close the socket while a request is open. -/
theorem visit_open {x y : Client.State} {j k : Nat} (hr : Client.Reachable y) (h : Client.step x .visit = some y)
    (hj : j < y.nsub) (hk : (y.subs j).kind = .request) (hg : (y.subs j).got = [])
    (ho : (x.socks k).st = .opened) : (y.socks k).st = .opened := by
  have hlive : j ∈ y.live := by
    refine ((Client.inv_live hr).mem j).2 ⟨hj, ?_⟩
    cases hu : (y.subs j).until_ with
    | none => rfl
    | some n => exact absurd hg ((Client.inv_live hr).kept j hj hk (by rw [hu]; simp))
  cases Client.step_Step h with
  | visitEnd id d cu se hp hn => exact finish_open se hlive ho
  | visit id d cu se j' hp hn =>
    show ((x.call j' id d).1.socks k).st = .opened
    rw [Client.State.call_socks]; exact ho

/-- What makes `driveOn` go on. -/
structure GoingOn (sv : Service σ C) (b : σ) (i j c k : Nat) (msg : Client.Msg) (s : State σ C) : Prop where
  made : Made sv b i j .request msg s
  calls : (s.clients i).calls.length ≤ 2 ^ 53
  owner : s.owner c = some (i, k)
  sent : msg ∈ sentOn (s.clients i) k
  loop : LoopAlive s.server
  opened : ((s.clients i).socks k).st = .opened
  alive : (s.server.conns c).alive = true
  orphans : NoOrphans s

theorem GoingOn.after {sv : Service σ C} {b : σ} {i j c k : Nat} {msg : Client.Msg} {s s' : State σ C} {l : Label}
    (h : GoingOn sv b i j c k msg s) (hl : Label.routine i c l) (hs : System.step sv s l = some s')
    (hc : ∀ i, (s'.clients i).calls = (s.clients i).calls) (ho : s'.owner = s.owner)
    (hsent : (s'.clients i).sent = (s.clients i).sent) (hg : ((s'.clients i).subs j).got = []) :
    GoingOn sv b i j c k msg s' := by
  have hM := h.made.later (ls := [l]) (s' := s') (by simp [System.run, hs])
  have srv : ∀ x (l' : Server.Label), Server.step sv s.server l' = some x → s'.server = x → s'.clients = s.clients →
      (l' = .take ∨ l' = .methodDone ∨ (∃ c, l' = .flush c) ∨ ∃ c f, l' = .frame c f) →
      GoingOn sv b i j c k msg s' := by
    intro x l' h1 h2 h3 h4
    obtain ⟨a1, a2, a3⟩ := orphans_step h1 h2 h.loop h.orphans h4
    exact ⟨hM, by rw [hc]; exact h.calls, by rw [ho]; exact h.owner, by rw [h3]; exact h.sent, a1,
      by rw [h3]; exact h.opened, a3 c h.alive, a2⟩
  have cl : s'.server = s.server → ((s'.clients i).socks k).st = .opened → GoingOn sv b i j c k msg s' := by
    intro h1 h2
    refine ⟨hM, by rw [hc]; exact h.calls, by rw [ho]; exact h.owner, by unfold sentOn; rw [hsent]; exact h.sent,
      by rw [h1]; exact h.loop, h2, by rw [h1]; exact h.alive, ?_⟩
    unfold NoOrphans
    rw [h1]
    exact h.orphans
  have step_server : ∀ l', System.step sv s (.server l') = some s' →
      (l' = .take ∨ l' = .methodDone ∨ (∃ c, l' = .flush c) ∨ ∃ c f, l' = .frame c f) →
      GoingOn sv b i j c k msg s' := by
    intro l' hs h4
    simp only [System.step, State.serverStep] at hs
    split at hs
    · cases hx : Server.step sv s.server l' with
      | none => rw [hx] at hs; cases hs
      | some x =>
        rw [hx] at hs
        simp only [Option.map_some, Option.some.injEq] at hs
        exact srv x l' hx (by rw [← hs]) (by rw [← hs]) h4
    · cases hs
  rcases hl with e | e | e | e | e | e
  · subst e
    simp only [System.step, h.owner] at hs
    split at hs
    · split at hs
      · rename_i x hx
        simp only [Option.some.injEq] at hs
        exact srv x _ hx (by rw [← hs]) (by rw [← hs]) (.inr (.inr (.inr ⟨_, _, rfl⟩)))
      · cases hs
    · cases hs
  · subst e; exact step_server _ hs (by simp)
  · subst e; exact step_server _ hs (by simp)
  · subst e; exact step_server _ hs (by simp)
  · subst e
    simp only [System.step, h.owner] at hs
    split at hs
    · rename_i r hr
      split at hs
      · rename_i x hx
        simp only [Option.some.injEq] at hs
        refine cl (by rw [← hs]; rfl) ?_
        have hself : s'.clients i = x := by rw [← hs]; exact setClient_self s i x
        rw [hself]
        cases r <;> simp only [incoming] at hx <;> cases Client.step_Step hx <;> exact h.opened
      · cases hs
    · cases hs
  · subst e
    simp only [System.step, State.clientStep, isLocal, if_true] at hs
    cases hx : Client.step (s.clients i) .visit with
    | none => rw [hx] at hs; cases hs
    | some x =>
      rw [hx] at hs
      simp only [Option.map_some, Option.some.injEq] at hs
      refine cl (by rw [← hs]; rfl) ?_
      have hself : s'.clients i = x := by rw [← hs]; exact setClient_self s i x
      have hrx : Client.Reachable x := by have := hM.reach.client i; rwa [hself] at this
      rw [hself]
      have b1 := hM.lt
      have b2 := hM.kind
      rw [hself] at b1 b2 hg
      exact visit_open hrx hx b1 b2 hg h.opened

/-- A request transmitted on a connection that is alive can be brought to its end. -/
theorem driveOn {sv : Service σ C} {b : σ} {i j c k : Nat} {msg : Client.Msg} {L : Nat} :
    ∀ (n : Nat) (s : State σ C), mu L s i c k ≤ n →
      (s.clients i).live.length ≤ L → GoingOn sv b i j c k msg s →
      ∃ ls' s', run sv s ls' = some s' ∧ (∀ l ∈ ls', Label.routine i c l) ∧
        ∃ l₁ l₂, s'.server.log = l₁ ++ (c, requestOf msg.id msg.ns msg.method msg.args) :: l₂ ∧
          ∀ d, Returns sv (replay sv b l₁) (requestOf msg.id msg.ns msg.method msg.args) d →
            ((s'.clients i).subs j).got = [d] := by
  intro n
  induction n with
  | zero =>
    intro s hmu hL h
    rcases Fit.next ⟨h.made.reach, h.owner, h.loop, h.opened, h.alive, h.orphans.2⟩ hL with
      ⟨ha, hq⟩ | ⟨l, s', _, _, _, _, _, _, hlt⟩
    · exact ⟨[], s, rfl, by simp, h.made.quiet h.calls h.owner h.sent hq (fun _ => ha)⟩
    · omega
  | succ n ih =>
    intro s hmu hL h
    rcases Fit.next ⟨h.made.reach, h.owner, h.loop, h.opened, h.alive, h.orphans.2⟩ hL with
      ⟨ha, hq⟩ | ⟨l, s', h1, h2, h3, h4, h5, h6, hlt⟩
    · exact ⟨[], s, rfl, by simp, h.made.quiet h.calls h.owner h.sent hq (fun _ => ha)⟩
    · by_cases hg : ((s'.clients i).subs j).got = []
      · obtain ⟨ls', s'', a1, a2, a4⟩ := ih s' (by omega) h6 (h.after h1 h2 h3 h4 h5 hg)
        refine ⟨l :: ls', s'', by simp only [run, h2]; exact a1, ?_, a4⟩
        intro l' hl'
        rcases List.mem_cons.1 hl' with rfl | hl'
        · exact h1
        · exact a2 l' hl'
      · have hM := h.made.later (ls := [l]) (s' := s') (by simp [System.run, h2])
        refine ⟨[l], s', by simp [System.run, h2], by simpa using h1, ?_⟩
        exact hM.resolved (by rw [h3]; exact h.calls) (by rw [h4]; exact h.owner)
          (by unfold sentOn; rw [h5]; exact h.sent) hg

end Verif.System
