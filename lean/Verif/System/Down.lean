import Verif.System.Inv
import Verif.Spec.System

/-!
# The composed system: what clients receive (proof helpers)
-/

namespace Verif.System
open Verif Verif.ServerSpec Verif.SystemSpec

variable {σ C : Type}

/-! ## Client facts -/

theorem sent_calls {x : Client.State} (hr : Client.Reachable x) {k : Nat} {m : Client.Msg}
    (h : (k, m) ∈ x.sent) : m ∈ x.calls := by
  refine (Client.inv_accounted hr).mem_iff.2 ?_
  exact List.mem_append_left _ (List.mem_append_left _ (List.mem_map.2 ⟨_, h, rfl⟩))

theorem sentOn_sent {x : Client.State} {k : Nat} {m : Client.Msg} :
    m ∈ sentOn x k ↔ (k, m) ∈ x.sent := by
  unfold sentOn
  simp only [List.mem_map, List.mem_filter, beq_iff_eq]
  constructor
  · rintro ⟨⟨k', m'⟩, ⟨h1, h2⟩, h3⟩
    simp only at h2 h3
    subst h2; subst h3; exact h1
  · intro h; exact ⟨(k, m), ⟨h, rfl⟩, rfl⟩

theorem call_id_le {x : Client.State} (hr : Client.Reachable x) {m : Client.Msg}
    (h : m ∈ x.calls) : m.id ≤ 2 ^ 53 := by
  have hi := Client.inv_id hr
  have : m.id ∈ x.issued := by rw [← hi.calls]; exact List.mem_map.2 ⟨m, h, rfl⟩
  rw [hi.issued] at this
  obtain ⟨j, _, e⟩ := List.mem_map.1 this
  rw [← e]; exact Nat.min_le_right _ _

theorem issued_length {x : Client.State} (hr : Client.Reachable x) :
    x.issued.length = x.calls.length := by
  rw [← (Client.inv_id hr).calls]; simp

theorem calls_nodup {x : Client.State} (hr : Client.Reachable x)
    (hn : x.calls.length ≤ 2 ^ 53) : (x.calls.map (·.id)).Nodup := by
  rw [(Client.inv_id hr).calls]
  exact (Client.issued_nodup hr (by rw [issued_length hr]; exact hn)).imp (fun h => Nat.ne_of_lt h)

theorem sent_nodup {x : Client.State} (hr : Client.Reachable x)
    (hn : x.calls.length ≤ 2 ^ 53) : (x.sent.map (fun p => p.2.id)).Nodup := by
  have h1 := calls_nodup hr hn
  have h2 := (Client.inv_accounted hr).map (fun m : Client.Msg => m.id)
  have h3 := h2.nodup_iff.1 h1
  rw [List.map_append, List.map_append, List.map_map] at h3
  exact (List.nodup_append.1 (List.nodup_append.1 h3).1).1

theorem nodup_map_inj {α β : Type} {f : α → β} {l : List α} (h : (l.map f).Nodup) {a b : α}
    (ha : a ∈ l) (hb : b ∈ l) (e : f a = f b) : a = b := by
  induction l with
  | nil => cases ha
  | cons x l ih =>
    rw [List.map_cons, List.nodup_cons] at h
    rcases List.mem_cons.1 ha with ea | ha'
    · rcases List.mem_cons.1 hb with eb | hb'
      · rw [ea, eb]
      · exact absurd (List.mem_map.2 ⟨b, hb', by rw [← e, ea]⟩) h.1
    · rcases List.mem_cons.1 hb with eb | hb'
      · exact absurd (List.mem_map.2 ⟨a, ha', by rw [e, eb]⟩) h.1
      · exact ih h.2 ha' hb'

theorem call_unique {x : Client.State} (hr : Client.Reachable x) (hn : x.calls.length ≤ 2 ^ 53)
    {m m' : Client.Msg} (h : m ∈ x.calls) (h' : m' ∈ x.calls) (e : m.id = m'.id) : m = m' :=
  nodup_map_inj (calls_nodup hr hn) h h' e

/-- A message is transmitted on one socket only. -/
theorem sent_unique {x : Client.State} (hr : Client.Reachable x) (hn : x.calls.length ≤ 2 ^ 53)
    {k k' : Nat} {m m' : Client.Msg} (h : m ∈ sentOn x k) (h' : m' ∈ sentOn x k')
    (e : m.id = m'.id) : k = k' ∧ m = m' := by
  have := nodup_map_inj (sent_nodup hr hn) (sentOn_sent.1 h) (sentOn_sent.1 h') e
  cases this; exact ⟨rfl, rfl⟩

/-- Messages are transmitted only on sockets that have been open. -/
theorem sent_wasOpen {x : Client.State} (hr : Client.Reachable x) :
    ∀ k m, (k, m) ∈ x.sent → (x.socks k).wasOpen = true := by
  refine hr.induct (P := fun x => ∀ k m, (k, m) ∈ x.sent → (x.socks k).wasOpen = true)
    (by intro k m h; simp [Client.init] at h) ?_
  clear hr x
  intro s l s' hr ih hst
  have hc := Client.inv_conn hr
  -- `wasOpen` stays true
  have hclose : ∀ (z : Client.State) k, (z.socks k).wasOpen = true →
      (z.close.socks k).wasOpen = true := by
    intro z k h
    unfold Client.State.close
    split
    · rename_i j _
      by_cases e : k = j
      · subst e; simp only [Client.upd_self]
        unfold Client.Sock.close; split <;> exact h
      · simp only [Client.upd_ne _ _ e]; exact h
    · exact h
  have hreopen : ∀ (z : Client.State) k, (z.socks k).wasOpen = true →
      (z.reopen.socks k).wasOpen = true := by
    intro z k h
    have := hclose z k h
    unfold Client.State.reopen
    simp only
    split <;> exact this
  have hunsub : ∀ (z : Client.State) j k, (z.socks k).wasOpen = true →
      ((z.unsubscribe j).socks k).wasOpen = true := by
    intro z j k h
    unfold Client.State.unsubscribe
    simp only
    split
    · exact hclose _ k h
    · exact h
  have hfinish : ∀ (l : List Nat) (z : Client.State) k, (z.socks k).wasOpen = true →
      ((z.finish l).socks k).wasOpen = true := by
    intro l
    induction l with
    | nil => intro z k h; exact h
    | cons j l ih => intro z k h; exact ih _ k (hunsub z j k h)
  have hopen : ∀ (z : Client.State) k, (∀ k, z.nsock ≤ k → z.socks k = Client.noSock) →
      (z.socks k).wasOpen = true → (z.open_.socks k).wasOpen = true := by
    intro z k hf h
    unfold Client.State.open_
    split
    · exact h
    · by_cases e : k = z.nsock
      · rw [e, hf _ (Nat.le_refl _)] at h; cases h
      · simp only [Client.upd_ne _ _ e]; exact h
  have hos : ∀ (z : Client.State) m, Client.InvConn z →
      (∀ k m, (k, m) ∈ z.sent → (z.socks k).wasOpen = true) →
      ∀ k m', (k, m') ∈ (z.openAndSend m).sent → ((z.openAndSend m).socks k).wasOpen = true := by
    intro z m hz ih k m' hm
    cases hrd : z.ready with
    | some j =>
      rw [Client.openAndSend_ready hrd] at hm ⊢
      simp only [List.mem_append, List.mem_singleton] at hm
      rcases hm with hm | hm
      · exact ih k m' hm
      · cases hm
        refine hz.opened k ?_
        unfold Client.State.ready at hrd
        split at hrd
        · split at hrd
          · cases hrd; assumption
          · cases hrd
        · cases hrd
    | none =>
      unfold Client.State.openAndSend at hm ⊢
      simp only [hrd] at hm ⊢
      have key : ∀ k m', (k, m') ∈ z.sent → (z.open_.socks k).wasOpen = true :=
        fun k m' h => hopen z k hz.fresh (ih k m' h)
      split at hm
      · rename_i j hj
        have hm' : (k, m') ∈ z.sent := by simpa using hm
        have := key k m' hm'
        by_cases e : k = j
        · subst e; simp only [Client.upd_self]; exact this
        · simp only [Client.upd_ne _ _ e]; exact this
      · exact key k m' (by simpa using hm)
  cases Client.step_Step hst with
  | request ns m a =>
    intro k m' hm
    refine hos _ _ ?_ ?_ k m' hm
    · refine Client.InvConn.same hc ?_ ?_ ?_ ?_ ?_ <;> rfl
    · exact ih
  | subscribe ns m a =>
    intro k m' hm
    refine hos _ _ ?_ ?_ k m' hm
    · refine Client.InvConn.same hc ?_ ?_ ?_ ?_ ?_ <;> rfl
    · exact ih
  | attach id h => exact ih
  | detach j h hk => intro k m hm; exact hunsub _ _ k (ih k m (by simpa using hm))
  | opened j hp hk =>
    rw [Client.foldl_openAndSend_ready (Client.onOpen_ready hc hk)]
    intro k m hm
    simp only [List.mem_append, List.mem_map] at hm
    show ((s.onOpen j).socks k).wasOpen = true
    by_cases e : k = j
    · subst e; simp [Client.State.onOpen]
    · rcases hm with hm | ⟨_, _, hm⟩
      · simp only [Client.State.onOpen, Client.upd_ne _ _ e]; exact ih k m hm
      · cases hm; exact absurd rfl e
  | failed j hp h =>
    intro k m hm
    refine hreopen _ k ?_
    have := ih k m (by simpa [Client.State.onError] using hm)
    by_cases e : k = j
    · subst e; simpa [Client.State.onError] using this
    · simp only [Client.State.onError, Client.upd_ne _ _ e]; exact this
  | clean j hp h hw =>
    intro k m hm
    refine hreopen _ k ?_
    have := ih k m (by simpa [Client.State.goneClean] using hm)
    by_cases e : k = j
    · subst e; simpa [Client.State.goneClean] using this
    · simp only [Client.State.goneClean, Client.upd_ne _ _ e]; exact this
  | closing j => intro k m hm; rw [Client.beginClose_wasOpen]; exact ih k m hm
  | method => exact ih
  | stream => exact ih
  | error => exact ih
  | garbage => exact ih
  | visitEnd id data cursor settled hp hn =>
    intro k m hm
    refine hfinish _ _ k ?_
    exact ih k m (by simpa using hm)
  | visit id data cursor settled j hp hn =>
    intro k m hm
    have h1 : ∀ j, ((s.call j id data).1).socks = s.socks := by
      intro j; unfold Client.State.call; split
      · split
        · rfl
        · split <;> rfl
      · rfl
    show (((s.call j id data).1).socks k).wasOpen = true
    rw [h1]
    exact ih k m (by simpa using hm)
  | visitThrow id data cursor settled j hp hn hid hk =>
    intro k m hm
    refine hfinish _ _ k ?_
    have h1 : ∀ j, ((s.call j id data).1).socks = s.socks := by
      intro j; unfold Client.State.call; split
      · split
        · rfl
        · split <;> rfl
      · rfl
    show (((s.call j id data).1).socks k).wasOpen = true
    rw [h1]
    exact ih k m (by simpa using hm)
  | timer d hp ht => intro k m hm; exact hopen _ k hc.fresh (ih k m (by simpa using hm))

/-! ## Messages and requests -/

theorem frameInput_ok {doc : Json} {r : Request} (h : Request.decode doc = .ok r) :
    Server.frameInput (some doc) = .ok r := by
  simp [Server.frameInput, h]

theorem msgInput_eq {m : Client.Msg} (h : m.id ≤ 2 ^ 53) :
    msgInput m = requestOf m.id m.ns m.method m.args := by
  have hlt : m.id < 2 ^ 64 := by omega
  exact frameInput_ok (Props.C23_client_message m.id m.ns m.method m.args hlt)

/-- A request in the log of a client's connection is one of its messages. -/
theorem log_message {sv : Service σ C} {b : σ} {s : State σ C} (hr : Reachable sv b s)
    {c i k : Nat} (ho : s.owner c = some (i, k)) {inp : Server.Input}
    (h : (c, inp) ∈ s.server.log) :
    ∃ m ∈ sentOn (s.clients i) k, inp = requestOf m.id m.ns m.method m.args := by
  have h1 : (c, inp) ∈ s.server.accepted := (Server.inv_queue hr.server).2.subset h
  have h2 : inp ∈ acceptedOn s.server c :=
    List.mem_map.2 ⟨_, List.mem_filter.2 ⟨h1, by simp⟩, rfl⟩
  obtain ⟨m, hm, e⟩ := List.mem_map.1 ((inv_up hr c i k ho).acc.subset h2)
  have hm' := List.mem_of_mem_take hm
  refine ⟨m, hm', ?_⟩
  rw [← e]
  exact msgInput_eq (call_id_le (hr.client i) (sent_calls (hr.client i) (sentOn_sent.1 hm')))

/-- What a response with data tells. -/
theorem answer_source {sv : Service σ C} {b : σ} {s : State σ C} (hr : Reachable sv b s)
    {c i k : Nat} (ho : s.owner c = some (i, k)) {src : Option Nat} {r : Response} {id : Nat}
    {d : Json} (h : (src, r) ∈ (s.server.conns c).produced) (hp : payload r = some (id, d)) :
    ∃ m ∈ sentOn (s.clients i) k, m.id = id ∧ ∃ l₁ l₂,
      s.server.log = l₁ ++ (c, requestOf id m.ns m.method m.args) :: l₂ ∧
      ((src = none ∧ Returns sv (replay sv b l₁) (requestOf id m.ns m.method m.args) d) ∨
       ∃ items j, src = some (streams sv b l₁).length ∧
         Streams sv (replay sv b l₁) (requestOf id m.ns m.method m.args) items ∧
         items j = some (.ok d)) := by
  obtain ⟨l₁, inp, l₂, hlog, hsrc⟩ := produced_source hr.server h
  obtain ⟨m, hm, rfl⟩ := log_message hr ho (inp := inp) (by rw [hlog]; simp)
  refine ⟨m, hm, ?_⟩
  rcases hsrc with ⟨hs, he⟩ | ⟨t, st, j, y, hs, _, hst, hj, rfl, ht⟩
  · -- a direct reply
    simp only [requestOf, exec1] at he
    split at he
    · cases he; simp [payload] at hp
    · rename_i call hd
      split at he
      · cases he
      · rename_i hstr
        split at he
        · rename_i b' data hrun
          simp only [Option.some.injEq] at he
          subst he
          simp only [payload, Option.some.injEq, Prod.mk.injEq] at hp
          obtain ⟨rfl, rfl⟩ := hp
          refine ⟨rfl, l₁, l₂, hlog, .inl ⟨hs, _, _, call, rfl, hd, by simpa using hstr, ?_⟩⟩
          rw [hrun]
        · cases he; simp [payload] at hp
  · -- an item
    simp only [requestOf, starts] at hst
    split at hst
    · rename_i call hd
      split at hst
      · rename_i hstr
        cases hst
        cases y with
        | error e => simp [itemResponse, payload] at hp
        | ok data =>
          simp only [itemResponse, payload, Option.some.injEq, Prod.mk.injEq] at hp
          obtain ⟨rfl, rfl⟩ := hp
          exact ⟨rfl, l₁, l₂, hlog, .inr ⟨_, j, by rw [hs, ht],
            ⟨_, _, call, rfl, hd, hstr, rfl⟩, hj⟩⟩
      · cases hst
    · cases hst

theorem written_produced {sv : Service σ C} {b : σ} {x : Server.State σ C}
    (hr : Server.Reachable sv b x) {c : Nat} {r : Response} (h : r ∈ (x.conns c).written) :
    ∃ src, (src, r) ∈ (x.conns c).produced := by
  have := (Server.inv_chan hr c).2.subset h
  obtain ⟨⟨src, r'⟩, h1, h2⟩ := List.mem_map.1 this
  exact ⟨src, by rw [← h2]; exact h1⟩

/-- The id of a written answer belongs to a message sent on the socket. -/
theorem written_id {sv : Service σ C} {b : σ} {s : State σ C} (hr : Reachable sv b s)
    {c i k : Nat} (ho : s.owner c = some (i, k)) {r : Response} {p : Nat × Json}
    (h : r ∈ (s.server.conns c).written) (hp : payload r = some p) :
    ∃ m ∈ sentOn (s.clients i) k, m.id = p.1 := by
  obtain ⟨src, hsrc⟩ := written_produced hr.server h
  obtain ⟨m, hm, e, _⟩ := answer_source hr ho (id := p.1) (d := p.2) hsrc hp
  exact ⟨m, hm, e⟩

/-- Everything received was written on a connection of the client. -/
theorem inv_recv {sv : Service σ C} {b : σ} {s : State σ C} (hr : Reachable sv b s) :
    ∀ i, ∀ p ∈ (s.clients i).received, ∃ c k r, s.owner c = some (i, k) ∧
      r ∈ (s.server.conns c).written ∧ payload r = some p := by
  refine hr.induct (P := fun s => ∀ i, ∀ p ∈ (s.clients i).received, ∃ c k r,
    s.owner c = some (i, k) ∧ r ∈ (s.server.conns c).written ∧ payload r = some p)
    (by intro i p h; simp [init, Client.init] at h) ?_
  clear hr s
  intro s l s' hr ih hst
  have hsrv : ∀ l x, Server.step sv s.server l = some x → ∀ i, ∀ p ∈ (s.clients i).received,
      ∃ c k r, s.owner c = some (i, k) ∧ r ∈ (x.conns c).written ∧ payload r = some p := by
    intro l x h i p hp
    obtain ⟨c, k, r, h1, h2, h3⟩ := ih i p hp
    exact ⟨c, k, r, h1, (server_written hr.server h c).subset h2, h3⟩
  cases step_Move hst with
  | client j l x h hl =>
    intro i p hp
    refine ih i p ?_
    by_cases e : i = j
    · subst e; rw [setClient_self] at hp; rwa [client_received h hl] at hp
    · rwa [setClient_ne _ _ e] at hp
  | server l x h => exact hsrv l x h
  | foreign x h => exact hsrv _ x h
  | accept i' k' x h hk hw hu =>
    intro i p hp
    obtain ⟨c, k, r, h1, h2, h3⟩ := hsrv _ x h i p hp
    refine ⟨c, k, r, ?_, h2, h3⟩
    have := (inv_own hr).lt _ _ h1
    show (if c = s.server.nconn then _ else s.owner c) = _
    rw [if_neg (by omega)]; exact h1
  | deliver c i k m x ho hm h => exact hsrv _ x h
  | respond c j k r x ho hm h =>
    intro i p hp
    have hp' : p ∈ ((s.setClient j x).clients i).received := hp
    by_cases e : i = j
    · subst e
      rw [setClient_self, (client_message h).1] at hp'
      rcases List.mem_append.1 hp' with hp' | hp'
      · exact ih i p hp'
      · exact ⟨c, k, r, ho, List.mem_of_getElem? hm, by simpa using hp'⟩
    · rw [setClient_ne _ _ e] at hp'; exact ih i p hp'

/-- The received answers bearing an id sent on a socket are those delivered from its connection, in
order. -/
structure InvDown (s : State σ C) (c i k : Nat) : Prop where
  le : s.down c ≤ (s.server.conns c).written.length
  recv : (s.clients i).calls.length ≤ 2 ^ 53 → ∀ m ∈ sentOn (s.clients i) k,
    (s.clients i).received.filter (fun p => p.1 = m.id) =
      (((s.server.conns c).written.take (s.down c)).filterMap payload).filter (fun p => p.1 = m.id)

theorem inv_down {sv : Service σ C} {b : σ} {s : State σ C} (h : Reachable sv b s) :
    ∀ c i k, s.owner c = some (i, k) → InvDown s c i k := by
  refine h.induct (P := fun s => ∀ c i k, s.owner c = some (i, k) → InvDown s c i k)
    (by intro c i k h; simp [init] at h) ?_
  clear h s
  intro s l s' hr ih hst c i k ho
  -- the server moves
  have hserver : ∀ l x (o : Nat → Option (Nat × Nat)) (u : Nat → Nat),
      Server.step sv s.server l = some x → s.owner c = some (i, k) →
      InvDown { s with server := x, owner := o, up := u } c i k := by
    intro l x o u h ho
    have hI := ih c i k ho
    have hp := server_written hr.server h c
    refine ⟨Nat.le_trans hI.le hp.length_le, fun hn m hm => ?_⟩
    show _ = List.filter _ (List.filterMap payload ((x.conns c).written.take (s.down c)))
    rw [prefix_take hp hI.le]
    exact hI.recv hn m hm
  -- nothing with a fresh id has been received or written
  have hfresh : ∀ id, (∀ k m, m ∈ sentOn (s.clients i) k → m.id ≠ id) →
      (s.clients i).received.filter (fun p => p.1 = id) = [] ∧
      ∀ c k, s.owner c = some (i, k) → ∀ n,
        (((s.server.conns c).written.take n).filterMap payload).filter (fun p => p.1 = id) = [] := by
    intro id hid
    refine ⟨?_, ?_⟩
    · rw [List.filter_eq_nil_iff]
      intro p hp
      obtain ⟨c, k, r, h1, h2, h3⟩ := inv_recv hr i p hp
      obtain ⟨m, hm, e⟩ := written_id hr h1 h2 h3
      have := hid k m hm
      simp only [decide_eq_true_eq]
      omega
    · intro c k h1 n
      rw [List.filter_eq_nil_iff]
      intro p hp
      obtain ⟨r, h2, h3⟩ := List.mem_filterMap.1 hp
      obtain ⟨m, hm, e⟩ := written_id hr h1 (List.mem_of_mem_take h2) h3
      have := hid k m hm
      simp only [decide_eq_true_eq]
      omega
  cases step_Move hst with
  | client j l x h hl =>
    have hI := ih c i k ho
    by_cases e : i = j
    · subst e
      refine ⟨hI.le, ?_⟩
      rw [setClient_self]
      intro hn m hm
      have hpre := client_sent (hr.client i) h
      have hn0 : (s.clients i).calls.length ≤ 2 ^ 53 :=
        Nat.le_trans (client_calls h).length_le hn
      rw [client_received h hl]
      show _ = List.filter _ (List.filterMap payload ((s.server.conns c).written.take (s.down c)))
      by_cases hold : m ∈ sentOn (s.clients i) k
      · exact hI.recv hn0 m hold
      · have hx := (hr.client i).step h
        have hid : ∀ k' m', m' ∈ sentOn (s.clients i) k' → m'.id ≠ m.id := by
          intro k' m' hm' e
          have := sent_unique hx hn ((sentOn_prefix hpre k').subset hm') hm e
          obtain ⟨rfl, rfl⟩ := this
          exact hold hm'
        obtain ⟨h1, h2⟩ := hfresh m.id hid
        rw [h1, h2 c k ho]
    · refine ⟨hI.le, ?_⟩
      rw [setClient_ne _ _ e]
      exact hI.recv
  | server l x h => exact hserver l x _ _ h ho
  | foreign x h => exact hserver _ x _ _ h ho
  | accept i' k' x h hk hw hu =>
    simp only at ho
    split at ho
    · rename_i e
      cases ho
      have hd : s.down c = 0 := (inv_own hr).down0 c (by omega)
      refine ⟨by show s.down c ≤ _; omega, fun _ m hm => ?_⟩
      have := sent_wasOpen (hr.client i) k m (sentOn_sent.1 hm)
      rw [hw] at this; cases this
    · exact hserver _ x _ _ h ho
  | deliver c' i' k' m x ho' hm h => exact hserver _ x _ _ h ho
  | respond c' j k' r x ho' hm h =>
    have hI := ih c i k ho
    have hmsg := client_message h
    have hlt : s.down c' < (s.server.conns c').written.length := (List.getElem?_eq_some_iff.1 hm).1
    by_cases e : c = c'
    · subst e
      have : s.owner c = some (i, k) := ho
      rw [this] at ho'; cases ho'
      refine ⟨?_, ?_⟩
      · show (if c = c then s.down c + 1 else s.down c) ≤ _
        simp only [if_true]; exact hlt
      · show ((s.setClient i x).clients i).calls.length ≤ 2 ^ 53 → _
        rw [setClient_self]
        intro hn m hm'
        show x.received.filter _ = List.filter _ (List.filterMap payload
          ((s.server.conns c).written.take (if c = c then s.down c + 1 else s.down c)))
        have hm3 : m ∈ sentOn (s.clients i) k := by
          unfold sentOn at hm' ⊢; rwa [hmsg.2.1] at hm'
        rw [hmsg.1, List.filter_append]
        simp only [if_true]
        rw [List.take_add_one, hm, List.filterMap_append, List.filter_append,
          hI.recv (by rw [← hmsg.2.2]; exact hn) m hm3]
        congr 1
    · refine ⟨?_, ?_⟩
      · show (if c = c' then s.down c' + 1 else s.down c) ≤ _
        rw [if_neg e]; exact hI.le
      · intro hn m hm'
        show ((s.setClient j x).clients i).received.filter _ = List.filter _ (List.filterMap payload
          ((s.server.conns c).written.take (if c = c' then s.down c' + 1 else s.down c)))
        have hn2 : ((s.setClient j x).clients i).calls.length ≤ 2 ^ 53 := hn
        have hm2 : m ∈ sentOn ((s.setClient j x).clients i) k := hm'
        rw [if_neg e]
        by_cases ej : i = j
        · subst ej
          rw [setClient_self] at hm2 hn2 ⊢
          have hm3 : m ∈ sentOn (s.clients i) k := by
            unfold sentOn at hm2 ⊢; rwa [hmsg.2.1] at hm2
          have hn3 : (s.clients i).calls.length ≤ 2 ^ 53 := by rw [← hmsg.2.2]; exact hn2
          rw [hmsg.1, List.filter_append, hI.recv hn3 m hm3]
          have : List.filter (fun p => decide (p.1 = m.id)) (payload r).toList = [] := by
            rw [List.filter_eq_nil_iff]
            intro p hp
            obtain ⟨m', hm', e'⟩ := written_id hr ho' (List.mem_of_getElem? hm) (by simpa using hp)
            simp only [decide_eq_true_eq]
            intro e2
            have := (sent_unique (hr.client i) hn3 hm3 hm' (by omega)).1
            subst this
            exact e ((inv_own hr).inj _ _ _ ho ho')
          rw [this, List.append_nil]
        · rw [setClient_ne _ _ ej] at hm2 hn2 ⊢
          exact hI.recv hn2 m hm2

end Verif.System
