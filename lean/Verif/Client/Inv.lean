import Verif.Client.Frame
import Verif.Spec.Client

/-!
# Invariants of the client: ids, backoff, connections
-/

namespace Verif.Client
open Verif Verif.ClientSpec

/-! ## Ids -/

/-- Invariant: ids. -/
structure InvId (s : State) : Prop where
  reqId : s.reqId = min s.issued.length (2 ^ 53)
  issued : s.issued = (List.range s.issued.length).map (fun i => min (i + 1) (2 ^ 53))
  calls : s.calls.map (·.id) = s.issued

theorem jsInc_min (n : Nat) : jsInc (min n (2 ^ 53)) = min (n + 1) (2 ^ 53) := by
  unfold jsInc; split <;> omega

theorem InvId.issue {s s' : State} (h : InvId s) (ns m a)
    (h1 : s'.reqId = (s.newMsg ns m a).id) (h2 : s'.issued = s.issued ++ [(s.newMsg ns m a).id])
    (h3 : s'.calls = s.calls ++ [s.newMsg ns m a]) : InvId s' := by
  have e : (s.newMsg ns m a).id = min (s.issued.length + 1) (2 ^ 53) := by
    show jsInc s.reqId = _
    rw [h.reqId, jsInc_min]
  refine ⟨?_, ?_, ?_⟩
  · rw [h1, h2, e]; simp
  · rw [h2]
    simp only [List.length_append, List.length_singleton, List.range_succ, List.map_append,
      List.map_singleton]
    rw [← h.issued, e]
  · rw [h3, h2]; simp [h.calls]

theorem InvId.same {s s' : State} (h : InvId s)
    (h1 : s'.reqId = s.reqId) (h2 : s'.issued = s.issued) (h3 : s'.calls = s.calls) : InvId s' := by
  refine ⟨?_, ?_, ?_⟩ <;> simp only [h1, h2, h3]
  · exact h.reqId
  · exact h.issued
  · exact h.calls

theorem inv_id {s : State} (hr : Reachable s) : InvId s := by
  refine hr.induct ⟨rfl, rfl, rfl⟩ ?_
  intro s l s' _ h hst
  cases step_Step hst with
  | request ns m a =>
    refine h.issue ns m a ?_ ?_ ?_ <;> unfold State.request <;> simp <;> rfl
  | subscribe ns m a =>
    refine h.issue ns m a ?_ ?_ ?_ <;> unfold State.subscribe <;> simp <;> rfl
  | attach => exact h.same (by simp) (by simp) (by simp)
  | detach => exact h.same (by simp) (by simp) (by simp)
  | opened =>
    refine h.same ?_ ?_ ?_
    · rw [State.foldl_openAndSend_reqId]; rfl
    · rw [State.foldl_openAndSend_issued]; rfl
    · rw [State.foldl_openAndSend_calls]; rfl
  | failed => exact h.same (by simp [State.onError]) (by simp [State.onError]) (by simp [State.onError])
  | clean => exact h.same (by simp [State.goneClean]) (by simp [State.goneClean]) (by simp [State.goneClean])
  | closing => exact h.same rfl rfl rfl
  | method => exact h.same rfl rfl rfl
  | stream => exact h.same rfl rfl rfl
  | error => exact h
  | garbage => exact h
  | visitEnd => exact h.same (by simp) (by simp) (by simp)
  | visit => exact h.same (by simp) (by simp) (by simp)
  | visitThrow => exact h.same (by simp) (by simp) (by simp)
  | timer => exact h.same (by simp) (by simp) (by simp)

theorem issued_nodup {s : State} (hr : Reachable s) (hn : s.issued.length ≤ 2 ^ 53) :
    s.issued.Pairwise (· < ·) := by
  rw [(inv_id hr).issued, List.pairwise_map]
  have h2 : ∀ a ∈ List.range s.issued.length, a < s.issued.length := fun a ha => List.mem_range.1 ha
  exact List.Pairwise.imp_of_mem (fun {a b} ha hb (hab : a < b) => by
    have := h2 a ha; have := h2 b hb; omega) List.pairwise_lt_range

/-! ## Backoff -/

theorem waitsSinceOpen_snoc (l : List Tick) (t : Tick) :
    waitsSinceOpen (l ++ [t]) = match t with | .opened => 0 | .wait _ => waitsSinceOpen l + 1 := by
  cases t <;> simp only [waitsSinceOpen, List.foldl_append, List.foldl_cons, List.foldl_nil]

/-- Invariant: deliveries under way. -/
structure InvTick (s : State) : Prop where
  count : s.reopenCount = waitsSinceOpen s.ticks
  waits : ∀ pre d post, s.ticks = pre ++ .wait d :: post → d = reopenDelay (waitsSinceOpen pre)

theorem InvTick.same {s s' : State} (h : InvTick s) (h1 : s'.reopenCount = s.reopenCount)
    (h2 : s'.ticks = s.ticks) : InvTick s' :=
  ⟨by rw [h1, h2, h.count], by rw [h2]; exact h.waits⟩

/-- Where an element of `l ++ [x]` sits. -/
theorem snoc_split {α : Type} {l : List α} {x y : α} {pre post : List α}
    (h : l ++ [x] = pre ++ y :: post) : (pre = l ∧ y = x) ∨ ∃ p, post = p ++ [x] ∧ l = pre ++ y :: p := by
  rcases List.eq_nil_or_concat post with rfl | ⟨p, z, rfl⟩
  · have := List.append_inj' h rfl
    exact .inl ⟨this.1.symm, by simpa using this.2.symm⟩
  · right
    rw [List.concat_eq_append] at h ⊢
    have h' : l ++ [x] = (pre ++ y :: p) ++ [z] := by simpa using h
    have := List.append_inj' h' rfl
    have hz : x = z := by simpa using this.2
    exact ⟨p, by rw [hz], this.1⟩

theorem InvTick.reopen {s : State} (h : InvTick s) : InvTick s.reopen := by
  unfold State.reopen
  simp only
  split
  · exact h.same (by simp) (by simp)
  · refine ⟨?_, ?_⟩
    · simp only [waitsSinceOpen_snoc, State.close_reopenCount, State.close_ticks, h.count]
    · intro pre d post he
      simp only [State.close_reopenCount, State.close_ticks] at he
      rcases snoc_split he with ⟨rfl, hd⟩ | ⟨p, _, hp⟩
      · injection hd with hd; rw [hd, h.count]
      · exact h.waits pre d p hp

theorem inv_tick {s : State} (hr : Reachable s) : InvTick s := by
  refine hr.induct ⟨rfl, by intro pre d post h; simp [init] at h⟩ ?_
  intro s l s' _ h hst
  cases step_Step hst with
  | request ns m a =>
    refine h.same ?_ ?_ <;> unfold State.request <;> simp <;> rfl
  | subscribe ns m a =>
    refine h.same ?_ ?_ <;> unfold State.subscribe <;> simp <;> rfl
  | attach => exact h.same (by simp) (by simp)
  | detach => exact h.same (by simp) (by simp)
  | opened k =>
    refine InvTick.same (s := s.onOpen k) ⟨?_, ?_⟩ (State.foldl_openAndSend_reopenCount _ _)
      (State.foldl_openAndSend_ticks _ _)
    · simp [State.onOpen, waitsSinceOpen_snoc]
    · intro pre d post he
      rcases snoc_split he with ⟨_, hd⟩ | ⟨p, _, hp⟩
      · cases hd
      · exact h.waits pre d p hp
  | failed k => exact InvTick.reopen (h.same rfl rfl)
  | clean k => exact InvTick.reopen (h.same rfl rfl)
  | closing => exact h.same rfl rfl
  | method => exact h.same rfl rfl
  | stream => exact h.same rfl rfl
  | error => exact h
  | garbage => exact h
  | visitEnd => exact h.same (by simp) (by simp)
  | visit => exact h.same (by simp) (by simp)
  | visitThrow => exact h.same (by simp) (by simp)
  | timer => exact h.same (by simp) (by simp)

/-! ## Connections -/

/-- A socket that can still carry messages. -/
def Sock.Live (k : Sock) : Prop := k.st = .connecting ∨ k.st = .opened

/-- Invariant: the connection and its socket. -/
structure InvConn (s : State) : Prop where
  fresh : ∀ k, s.nsock ≤ k → s.socks k = noSock
  live : ∀ k, ((s.socks k).Live → s.socket = some k) ∧
    (s.socket = some k → (s.socks k).Live ∨ (s.socks k).st = .closing ∧ (s.socks k).wasOpen = true)
  conn : ∀ k, (s.socks k).st = .connecting → s.openP = some k
  pend : ∀ k, s.openP = some k → (s.socks k).st = .connecting ∨ (s.socks k).st = .closing
  timer : s.timer ≠ none → s.socket = none
  wait : ∀ k, (s.socks k).waiting ≠ [] → (s.socks k).wasOpen = false ∧
    ((s.socks k).st = .connecting ∨ (s.socks k).st = .closing)
  opened : ∀ k, (s.socks k).st = .opened → (s.socks k).wasOpen = true
  connecting : ∀ k, (s.socks k).st = .connecting → (s.socks k).wasOpen = false
  pendNew : ∀ k, s.openP = some k → (s.socks k).wasOpen = false

/-- `InvConn` only looks at these fields. -/
theorem InvConn.same {s s' : State} (h : InvConn s) (h1 : s'.socks = s.socks)
    (h2 : s'.nsock = s.nsock) (h3 : s'.socket = s.socket) (h4 : s'.openP = s.openP)
    (h5 : s'.timer = s.timer) : InvConn s' := by
  obtain ⟨a, b, c, d, e, f, g, i, j⟩ := h
  exact ⟨by rw [h1, h2]; exact a, by rw [h1, h3]; exact b, by rw [h1, h4]; exact c,
    by rw [h1, h4]; exact d, by rw [h5, h3]; exact e, by rw [h1]; exact f, by rw [h1]; exact g,
    by rw [h1]; exact i, by rw [h1, h4]; exact j⟩

theorem noSock_not_live : ¬ noSock.Live := by simp [Sock.Live, noSock]

theorem Sock.close_not_live (k : Sock) : ¬ k.close.Live := by
  unfold Sock.close Sock.Live; split <;> simp_all

theorem Sock.close_st (k : Sock) : k.close.st = .closing ∨ k.close.st = .closed := by
  unfold Sock.close; split <;> simp_all
  cases h : k.st <;> simp_all

@[simp] theorem Sock.close_waiting (k : Sock) : k.close.waiting = k.waiting := by
  unfold Sock.close; split <;> rfl
@[simp] theorem Sock.close_wasOpen (k : Sock) : k.close.wasOpen = k.wasOpen := by
  unfold Sock.close; split <;> rfl

/-- What `close` needs of the state before: everything but the link from `socket` to live sockets
of index other than the current one. -/
theorem InvConn.close_aux {s : State} (hf : ∀ k, s.nsock ≤ k → s.socks k = noSock)
    (hl : ∀ k, (s.socks k).Live → s.socket = some k)
    (hp : ∀ k, s.openP = some k → (s.socks k).st = .connecting ∨ (s.socks k).st = .closing)
    (hw : ∀ k, (s.socks k).waiting ≠ [] → (s.socks k).wasOpen = false ∧
      ((s.socks k).st = .connecting ∨ (s.socks k).st = .closing))
    (hn : ∀ k, s.openP = some k → (s.socks k).wasOpen = false) : InvConn s.close := by
  unfold State.close
  cases hs : s.socket with
  | none =>
    have hno : ∀ k, ¬ (s.socks k).Live := fun k h => by rw [hl k h] at hs; cases hs
    simp only
    refine ⟨hf, ?_, ?_, hp, fun _ => rfl, hw, ?_, ?_, hn⟩
    · intro k; exact ⟨fun h => absurd h (hno k), fun h => by cases h⟩
    · intro k h; exact absurd (.inl h) (hno k)
    · intro k h; exact absurd (.inr h) (hno k)
    · intro k h; exact absurd (.inl h) (hno k)
  | some j =>
    have hno : ∀ k, ¬ ((upd s.socks j (s.socks j).close) k).Live := by
      intro k h
      by_cases hk : k = j
      · subst hk; rw [upd_self] at h; exact Sock.close_not_live _ h
      · rw [upd_ne _ _ hk] at h
        have := hl k h; rw [hs] at this; injection this with this; exact hk this.symm
    refine ⟨?_, ?_, ?_, ?_, ?_, ?_, ?_, ?_, ?_⟩
    · intro k hk
      by_cases e : k = j
      · subst e; simp only [upd_self]; rw [hf k hk]; rfl
      · simp only [upd_ne _ _ e]; exact hf k hk
    · intro k; exact ⟨fun h => absurd h (hno k), fun h => by cases h⟩
    · intro k h; exact absurd (.inl h) (hno k)
    · intro k h
      by_cases e : k = j
      · subst e; right; simp only [upd_self]
        rcases hp k h with h | h <;> simp [Sock.close, h]
      · simp only [upd_ne _ _ e]; exact hp k h
    · intro _; rfl
    · intro k h
      by_cases e : k = j
      · subst e; simp only [upd_self, Sock.close_waiting, Sock.close_wasOpen] at h ⊢
        obtain ⟨h1, h2⟩ := hw k h
        refine ⟨h1, .inr ?_⟩
        rcases h2 with h2 | h2 <;> simp [Sock.close, h2]
      · simp only [upd_ne _ _ e] at h ⊢; exact hw k h
    · intro k h; exact absurd (.inr h) (hno k)
    · intro k h; exact absurd (.inl h) (hno k)
    · intro k h
      by_cases e : k = j
      · subst e; simp only [upd_self, Sock.close_wasOpen]; exact hn k h
      · simp only [upd_ne _ _ e]; exact hn k h

theorem InvConn.close {s : State} (h : InvConn s) : InvConn s.close :=
  InvConn.close_aux h.fresh (fun k => (h.live k).1) h.pend h.wait h.pendNew

theorem close_socket (s : State) : s.close.socket = none := by
  unfold State.close; split <;> simp_all

theorem InvConn.timer_set {s : State} (h : InvConn s) (hs : s.socket = none) (t c : Option Nat)
    (n : Nat) (tk : List Tick) : InvConn { s with timer := t, reopenCount := n, ticks := tk } :=
  have _ := c
  ⟨h.fresh, h.live, h.conn, h.pend, fun _ => hs, h.wait, h.opened, h.connecting, h.pendNew⟩

theorem InvConn.reopen_aux {s : State} (h : InvConn s.close) : InvConn s.reopen := by
  unfold State.reopen
  simp only
  split
  · exact h
  · exact h.timer_set (close_socket s) _ none _ _

theorem InvConn.open_ {s : State} (h : InvConn s) (hr : s.ready = none) : InvConn s.open_ := by
  unfold State.open_
  cases ho : s.openP with
  | some k =>
    simp only
    exact ⟨h.fresh, h.live, by simpa only [ho] using h.conn, by simpa only [ho] using h.pend,
      fun h => absurd rfl h, h.wait, h.opened, h.connecting, by simpa only [ho] using h.pendNew⟩
  | none =>
    have hno : ∀ k, ¬ (s.socks k).Live := by
      intro k hk
      have hs := (h.live k).1 hk
      rcases hk with hc | hc
      · rw [h.conn k hc] at ho; cases ho
      · simp [State.ready, hs, hc] at hr
    refine ⟨?_, ?_, ?_, ?_, ?_, ?_, ?_, ?_, ?_⟩
    · intro k hk
      have : k ≠ s.nsock := by have : s.nsock + 1 ≤ k := hk; omega
      simp only [upd_ne _ _ this]
      exact h.fresh k (Nat.le_of_succ_le hk)
    · intro k
      by_cases e : k = s.nsock
      · subst e; simp [Sock.Live]
      · simp only [upd_ne _ _ e]
        exact ⟨fun hk => absurd hk (hno k), fun hk => by injection hk with hk; exact absurd hk.symm e⟩
    · intro k hk
      by_cases e : k = s.nsock
      · subst e; rfl
      · simp only [upd_ne _ _ e] at hk; exact absurd (.inl hk) (hno k)
    · intro k hk
      injection hk with hk; subst hk; simp
    · intro hk; exact absurd rfl hk
    · intro k hk
      by_cases e : k = s.nsock
      · subst e; simp at hk
      · simp only [upd_ne _ _ e] at hk ⊢; exact h.wait k hk
    · intro k hk
      by_cases e : k = s.nsock
      · subst e; simp at hk
      · simp only [upd_ne _ _ e] at hk ⊢; exact h.opened k hk
    · intro k hk
      by_cases e : k = s.nsock
      · subst e; simp
      · simp only [upd_ne _ _ e] at hk ⊢; exact h.connecting k hk
    · intro k hk
      injection hk with hk; subst hk; simp

theorem open_openP (s : State) : ∃ k, s.open_.openP = some k := by
  unfold State.open_; split
  · exact ⟨_, ‹_›⟩
  · exact ⟨_, rfl⟩

/-- Adding a waiting message to the pending promise. -/
theorem InvConn.enqueue {s : State} (h : InvConn s) {k : Nat} (hk : s.openP = some k) (m : Msg) :
    InvConn { s with socks := (upd s.socks k
      { s.socks k with waiting := (s.socks k).waiting ++ [m] }) } := by
  have hst : ∀ j, (upd s.socks k { s.socks k with waiting := (s.socks k).waiting ++ [m] } j).st =
      (s.socks j).st := by
    intro j; by_cases e : j = k
    · subst e; simp
    · simp [upd_ne _ _ e]
  have hwo : ∀ j, (upd s.socks k { s.socks k with waiting := (s.socks k).waiting ++ [m] } j).wasOpen
      = (s.socks j).wasOpen := by
    intro j; by_cases e : j = k
    · subst e; simp
    · simp [upd_ne _ _ e]
  refine ⟨?_, ?_, ?_, ?_, h.timer, ?_, ?_, ?_, ?_⟩
  · intro j hj
    have : j ≠ k := by
      rintro rfl
      have := h.pend j hk
      rw [h.fresh j hj] at this; simp [noSock] at this
    simp only [upd_ne _ _ this]; exact h.fresh j hj
  · intro j; simp only [Sock.Live, hst, hwo]; exact h.live j
  · intro j; simp only [hst]; exact h.conn j
  · intro j; simp only [hst]; exact h.pend j
  · intro j hj
    simp only [hst, hwo]
    by_cases e : j = k
    · subst e; exact ⟨h.pendNew j hk, h.pend j hk⟩
    · simp only [upd_ne _ _ e] at hj; exact h.wait j hj
  · intro j; simp only [hst, hwo]; exact h.opened j
  · intro j; simp only [hst, hwo]; exact h.connecting j
  · intro j; simp only [hwo]; exact h.pendNew j

theorem InvConn.openAndSend {s : State} (h : InvConn s) (m : Msg) : InvConn (s.openAndSend m) := by
  unfold State.openAndSend
  cases hr : s.ready with
  | some k => exact h.same rfl rfl rfl rfl rfl
  | none =>
    simp only
    split
    · exact (h.open_ hr).enqueue ‹_› m
    · exact h.open_ hr

theorem openAndSend_ready {s : State} {k : Nat} (h : s.ready = some k) (m : Msg) :
    s.openAndSend m = { s with sent := s.sent ++ [(k, m)] } := by
  simp [State.openAndSend, h]

theorem foldl_openAndSend_ready {s : State} {k : Nat} (h : s.ready = some k) (l : List Msg) :
    l.foldl State.openAndSend s = { s with sent := s.sent ++ l.map (fun m => (k, m)) } := by
  induction l generalizing s with
  | nil => simp
  | cons m l ih =>
    rw [List.foldl_cons, openAndSend_ready h, ih (s := { s with sent := s.sent ++ [(k, m)] })]
    · simp
    · exact h

theorem onOpen_ready {s : State} (h : InvConn s) {k : Nat} (hk : (s.socks k).st = .connecting) :
    (s.onOpen k).ready = some k := by
  have := (h.live k).1 (.inl hk)
  simp [State.ready, State.onOpen, this]

theorem InvConn.onOpen {s : State} (h : InvConn s) {k : Nat} (hk : (s.socks k).st = .connecting) :
    InvConn (s.onOpen k) := by
  have hcur := (h.live k).1 (.inl hk)
  have hlk : ∀ j, (s.socks j).Live → j = k := fun j hj => by
    have := (h.live j).1 hj; rw [hcur] at this; injection this with this; exact this.symm
  unfold State.onOpen
  refine ⟨?_, ?_, ?_, ?_, ?_, ?_, ?_, ?_, ?_⟩
  · intro j hj
    have : j ≠ k := by
      rintro rfl; rw [h.fresh j hj] at hk; cases hk
    simp only [upd_ne _ _ this]; exact h.fresh j hj
  · intro j
    by_cases e : j = k
    · subst e; simp [Sock.Live, hcur]
    · simp only [upd_ne _ _ e]; exact h.live j
  · intro j hj
    by_cases e : j = k
    · subst e; simp at hj
    · simp only [upd_ne _ _ e] at hj; exact absurd (hlk j (.inl hj)) e
  · intro j hj; cases hj
  · exact h.timer
  · intro j hj
    by_cases e : j = k
    · subst e; simp at hj
    · simp only [upd_ne _ _ e] at hj ⊢; exact h.wait j hj
  · intro j hj
    by_cases e : j = k
    · subst e; simp
    · simp only [upd_ne _ _ e] at hj ⊢; exact h.opened j hj
  · intro j hj
    by_cases e : j = k
    · subst e; simp at hj
    · simp only [upd_ne _ _ e] at hj ⊢; exact h.connecting j hj
  · intro j hj; cases hj

theorem InvConn.onError {s : State} (h : InvConn s) (k : Nat) :
    InvConn (s.onError k).close := by
  have hst : ∀ j, ¬ ((s.onError k).socks j).waiting = [] → j ≠ k := by
    intro j hj e; subst e; simp [State.onError] at hj
  refine InvConn.close_aux ?_ ?_ ?_ ?_ ?_
  · intro j hj
    by_cases e : j = k
    · subst e; simp only [State.onError, upd_self]
      have := h.fresh j hj; simp [this, noSock]
    · simp only [State.onError, upd_ne _ _ e]; exact h.fresh j hj
  · intro j hj
    by_cases e : j = k
    · subst e; simp [State.onError, Sock.Live] at hj
    · simp only [State.onError, upd_ne _ _ e] at hj ⊢; exact (h.live j).1 hj
  · intro j hj; cases hj
  · intro j hj
    have e := hst j hj
    simp only [State.onError, upd_ne _ _ e] at hj ⊢; exact h.wait j hj
  · intro j hj; cases hj

theorem InvConn.goneClean {s : State} (h : InvConn s) {k : Nat} (hw : (s.socks k).wasOpen = true) :
    InvConn (s.goneClean k).close := by
  refine InvConn.close_aux ?_ ?_ ?_ ?_ ?_
  · intro j hj
    by_cases e : j = k
    · subst e; rw [h.fresh j hj] at hw; cases hw
    · simp only [State.goneClean, upd_ne _ _ e]; exact h.fresh j hj
  · intro j hj
    by_cases e : j = k
    · subst e; simp [State.goneClean, Sock.Live] at hj
    · simp only [State.goneClean, upd_ne _ _ e] at hj ⊢; exact (h.live j).1 hj
  · intro j hj
    by_cases e : j = k
    · subst e; have := h.pendNew j hj; rw [hw] at this; cases this
    · simp only [State.goneClean, upd_ne _ _ e]; exact h.pend j hj
  · intro j hj
    by_cases e : j = k
    · subst e; simp only [State.goneClean, upd_self] at hj
      have := (h.wait j hj).1; rw [hw] at this; cases this
    · simp only [State.goneClean, upd_ne _ _ e] at hj ⊢; exact h.wait j hj
  · intro j hj
    by_cases e : j = k
    · subst e; have := h.pendNew j hj; rw [hw] at this; cases this
    · simp only [State.goneClean, upd_ne _ _ e]; exact h.pendNew j hj

theorem beginClose_waiting (s : State) (k j : Nat) : ((s.beginClose k).socks j).waiting = (s.socks j).waiting := by
  by_cases e : j = k
  · subst e; simp [State.beginClose]
  · simp [State.beginClose, upd_ne _ _ e]

theorem beginClose_wasOpen (s : State) (k j : Nat) : ((s.beginClose k).socks j).wasOpen = (s.socks j).wasOpen := by
  by_cases e : j = k
  · subst e; simp [State.beginClose]
  · simp [State.beginClose, upd_ne _ _ e]

theorem beginClose_live (s : State) (k j : Nat) (h : ((s.beginClose k).socks j).Live) : (s.socks j).Live := by
  by_cases e : j = k
  · subst e; simp only [State.beginClose, upd_self] at h; exact absurd h (Sock.close_not_live _)
  · simpa [State.beginClose, upd_ne _ _ e] using h

theorem beginClose_opened (s : State) (k j : Nat) (h : ((s.beginClose k).socks j).st = .opened) : (s.socks j).st = .opened := by
  by_cases e : j = k
  · subst e; simp only [State.beginClose, upd_self] at h; exact absurd (.inr h) (Sock.close_not_live _)
  · simpa [State.beginClose, upd_ne _ _ e] using h

theorem InvConn.beginClose {s : State} (h : InvConn s) {k : Nat} (hk : (s.socks k).st = .opened) : InvConn (s.beginClose k) := by
  have hw := h.opened k hk
  have hcur := (h.live k).1 (.inr hk)
  have hno : s.openP ≠ some k := fun e => by rcases h.pend k e with h' | h' <;> rw [hk] at h' <;> cases h'
  have hcl : (s.socks k).close = { s.socks k with st := .closing } := by simp [Sock.close, hk]
  unfold State.beginClose
  rw [hcl]
  refine ⟨?_, ?_, ?_, ?_, h.timer, ?_, ?_, ?_, ?_⟩
  · intro j hj
    by_cases e : j = k
    · subst e; rw [h.fresh j hj] at hk; cases hk
    · simp only [upd_ne _ _ e]; exact h.fresh j hj
  · intro j
    by_cases e : j = k
    · subst e; simp [Sock.Live, hcur, hw]
    · simp only [upd_ne _ _ e]; exact h.live j
  · intro j hj
    by_cases e : j = k
    · subst e; simp at hj
    · simp only [upd_ne _ _ e] at hj; exact h.conn j hj
  · intro j hj
    have e : j ≠ k := fun e => hno (e ▸ hj)
    simp only [upd_ne _ _ e]; exact h.pend j hj
  · intro j hj
    by_cases e : j = k
    · subst e
      simp only [upd_self] at hj
      have := (h.wait j hj).1
      rw [hw] at this; cases this
    · simp only [upd_ne _ _ e] at hj ⊢; exact h.wait j hj
  · intro j hj
    by_cases e : j = k
    · subst e; simp at hj
    · simp only [upd_ne _ _ e] at hj ⊢; exact h.opened j hj
  · intro j hj
    by_cases e : j = k
    · subst e; simp at hj
    · simp only [upd_ne _ _ e] at hj ⊢; exact h.connecting j hj
  · intro j hj
    have e : j ≠ k := fun e => hno (e ▸ hj)
    simp only [upd_ne _ _ e]; exact h.pendNew j hj

theorem InvConn.unsubscribe {s : State} (h : InvConn s) (k : Nat) : InvConn (s.unsubscribe k) := by
  unfold State.unsubscribe
  simp only
  split
  · exact InvConn.close (h.same rfl rfl rfl rfl rfl)
  · exact h.same rfl rfl rfl rfl rfl

theorem InvConn.finish {s : State} (h : InvConn s) (l : List Nat) : InvConn (s.finish l) := by
  induction l generalizing s with
  | nil => exact h
  | cons k l ih => exact ih (h.unsubscribe k)

theorem inv_conn {s : State} (hr : Reachable s) : InvConn s := by
  refine hr.induct ?_ ?_
  · refine ⟨fun _ _ => rfl, ?_, ?_, ?_, ?_, ?_, ?_, ?_, ?_⟩ <;>
      simp [init, noSock, Sock.Live]
  intro s l s' _ h hst
  cases step_Step hst with
  | request ns m a =>
    refine InvConn.openAndSend (InvConn.same h ?_ ?_ ?_ ?_ ?_) _ <;> rfl
  | subscribe ns m a =>
    refine InvConn.openAndSend (InvConn.same h ?_ ?_ ?_ ?_ ?_) _ <;> rfl
  | attach => exact h.same rfl rfl rfl rfl rfl
  | detach k => exact h.unsubscribe k
  | opened k hp hk =>
    rw [foldl_openAndSend_ready (onOpen_ready h hk)]
    exact (h.onOpen hk).same rfl rfl rfl rfl rfl
  | failed k => exact InvConn.reopen_aux (h.onError k)
  | clean k hp hc hw => exact InvConn.reopen_aux (h.goneClean hw)
  | closing k hp hk => exact h.beginClose hk
  | method => exact h.same rfl rfl rfl rfl rfl
  | stream => exact h.same rfl rfl rfl rfl rfl
  | error => exact h
  | garbage => exact h
  | visitEnd =>
    refine InvConn.finish (InvConn.same h ?_ ?_ ?_ ?_ ?_) _ <;> rfl
  | visit => exact h.same (by simp) (by simp) (by simp) (by simp) (by simp)
  | visitThrow =>
    exact InvConn.finish (h.same (by simp) (by simp) (by simp) (by simp) (by simp)) _
  | timer d hp ht =>
    refine h.open_ ?_
    have := h.timer (by rw [ht]; simp)
    simp [State.ready, this]

end Verif.Client
