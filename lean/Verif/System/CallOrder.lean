import Verif.System.Order
import Verif.Spec.Order

/-!
# Which socket carries a call, and in which order (proof helpers)
-/

namespace Verif.System
open Verif Verif.Client

/-! ## A socket carries messages in the order of the calls -/

/-- The messages of a socket, transmitted or waiting, in the order of the calls. -/
def PerSock (x : Client.State) : Prop :=
  ∀ k, (sentOn x k ++ (x.socks k).waiting).Sublist x.calls

theorem PerSock.same {x y : Client.State} (h : PerSock x) (h1 : y.calls = x.calls) (h2 : y.sent = x.sent)
    (h3 : ∀ k, (y.socks k).waiting.Sublist (x.socks k).waiting) : PerSock y := by
  intro k
  have e : sentOn y k = sentOn x k := by unfold sentOn; rw [h2]
  rw [h1, e]
  exact ((List.Sublist.refl _).append (h3 k)).trans (h k)

theorem sentOn_snoc (x : Client.State) (k j : Nat) (m : Msg) :
    sentOn { x with sent := x.sent ++ [(k, m)] } j = if j = k then sentOn x j ++ [m] else sentOn x j := by
  unfold sentOn
  rw [List.filter_append, List.map_append]
  by_cases e : j = k
  · subst e; simp
  · have : (k == j) = false := by simp; omega
    simp [e, this]

/-- Where `open_and_send` puts a message when the socket is not open. -/
theorem openAndSend_wait {x : Client.State} (hc : InvConn x) (hr : x.ready = none) (m : Msg) :
    ∃ k, (x.openAndSend m).sent = x.sent ∧
      (∀ j, ((x.openAndSend m).socks j).waiting = if j = k then (x.socks j).waiting ++ [m] else (x.socks j).waiting) ∧
      (∀ j, ((x.openAndSend m).socks j).st = .connecting → (x.socks j).st = .connecting ∨ (x.socks j).waiting = []) ∧
      (∀ j, (x.socks j).st = .connecting → (x.openAndSend m).socket = some j) := by
  obtain ⟨k, hk⟩ := open_openP x
  refine ⟨k, ?_⟩
  have e : x.openAndSend m = { x.open_ with
      socks := (upd x.open_.socks k { x.open_.socks k with waiting := (x.open_.socks k).waiting ++ [m] }) } := by
    unfold State.openAndSend
    simp only [hr, hk]
  have hw : ∀ j, (x.open_.socks j).waiting = (x.socks j).waiting := by
    intro j
    unfold State.open_
    split
    · rfl
    · by_cases e : j = x.nsock
      · subst e; simp only [upd_self]; rw [hc.fresh _ (Nat.le_refl _)]; rfl
      · simp only [upd_ne _ _ e]
  have hst : ∀ j, (x.open_.socks j).st = .connecting → (x.socks j).st = .connecting ∨ (x.socks j).waiting = [] := by
    intro j hj
    unfold State.open_ at hj
    split at hj
    · exact .inl hj
    · by_cases e : j = x.nsock
      · subst e; right; rw [hc.fresh _ (Nat.le_refl _)]; rfl
      · simp only [upd_ne _ _ e] at hj; exact .inl hj
  rw [e]
  refine ⟨by simp, ?_, ?_, ?_⟩
  · intro j
    by_cases e : j = k
    · subst e; simp [hw]
    · simp only [upd_ne _ _ e, hw, if_neg e]
  · intro j hj
    by_cases e : j = k
    · subst e; simp only [upd_self] at hj; exact hst j hj
    · simp only [upd_ne _ _ e] at hj; exact hst j hj
  · intro j hj
    have ho := hc.conn j hj
    have hs := (hc.live j).1 (.inl hj)
    show x.open_.socket = some j
    unfold State.open_
    rw [ho]
    exact hs

theorem PerSock.call {x : Client.State} (hc : InvConn x) {m : Msg} {old : List Msg} (hcalls : x.calls = old ++ [m])
    (h : ∀ k, (sentOn x k ++ (x.socks k).waiting).Sublist old) : PerSock (x.openAndSend m) := by
  intro k
  rw [State.openAndSend_calls, hcalls]
  cases hr : x.ready with
  | some j =>
    rw [openAndSend_ready hr, sentOn_snoc]
    show (_ ++ (x.socks k).waiting).Sublist _
    split
    · rename_i e; subst e
      have hst : (x.socks k).st = .opened := by
        unfold State.ready at hr
        split at hr
        · split at hr
          · rename_i hst; cases hr; exact hst
          · cases hr
        · cases hr
      have hw : (x.socks k).waiting = [] := by
        apply Classical.byContradiction
        intro hne
        have := (hc.wait k hne).1
        rw [hc.opened k hst] at this; cases this
      have := h k
      rw [hw, List.append_nil] at this ⊢
      exact this.append (List.Sublist.refl _)
    · exact (h k).trans (List.sublist_append_left _ _)
  | none =>
    obtain ⟨j, h1, h2, _⟩ := openAndSend_wait hc hr m
    have e : sentOn (x.openAndSend m) k = sentOn x k := by unfold sentOn; rw [h1]
    rw [e, h2]
    split
    · rw [← List.append_assoc]; exact (h k).append (List.Sublist.refl _)
    · exact (h k).trans (List.sublist_append_left _ _)

theorem inv_perSock {x : Client.State} (hr : Client.Reachable x) : PerSock x := by
  refine hr.induct (P := PerSock) (fun k => by simp [sentOn, Client.init, noSock]) ?_
  clear hr x
  intro s l s' hr h hst
  have hc := inv_conn hr
  cases step_Step hst with
  | request ns m a =>
    have hc' : InvConn ((s.issue (s.newMsg ns m a)).addSub .request (s.newMsg ns m a).id) := by
      refine InvConn.same hc ?_ ?_ ?_ ?_ ?_ <;> rfl
    exact PerSock.call hc' rfl h
  | subscribe ns m a =>
    have hc' : InvConn { s.issue (s.newMsg ns m a) with
        stores := s.stores ++ [(s.newMsg ns m a).id] } := by
      refine InvConn.same hc ?_ ?_ ?_ ?_ ?_ <;> rfl
    exact PerSock.call hc' rfl h
  | attach => exact h.same rfl rfl (fun _ => List.Sublist.refl _)
  | detach j => exact h.same (by simp) (by simp) (fun k => by rw [unsubscribe_waiting]; exact List.Sublist.refl _)
  | opened k hp hk =>
    rw [foldl_openAndSend_ready (onOpen_ready hc hk)]
    intro j
    have := h j
    simp only [State.onOpen, sentOn, List.filter_append, List.map_append] at this ⊢
    by_cases e : j = k
    · subst e
      have ht : List.filter (fun _ : Msg => true) (s.socks j).waiting = (s.socks j).waiting :=
        List.filter_eq_self.2 (fun _ _ => rfl)
      simpa [List.filter_map, Function.comp_def, ht] using this
    · have e' : (k == j) = false := by simp; omega
      simp only [upd_ne _ _ e]
      have hf : List.filter (fun _ : Msg => false) (s.socks k).waiting = [] :=
        List.filter_eq_nil_iff.2 (fun _ _ => by simp)
      simpa [List.filter_map, Function.comp_def, e', hf] using this
  | failed k =>
    refine h.same (by simp [State.onError]) (by simp [State.onError]) (fun j => ?_)
    rw [reopen_waiting]
    by_cases e : j = k
    · subst e; simp [State.onError]
    · simp [State.onError, upd_ne _ _ e]
  | clean k =>
    refine h.same (by simp [State.goneClean]) (by simp [State.goneClean]) (fun j => ?_)
    rw [reopen_waiting]
    by_cases e : j = k
    · subst e; simp [State.goneClean]
    · simp [State.goneClean, upd_ne _ _ e]
  | closing k =>
    exact h.same rfl rfl (fun j => by rw [beginClose_waiting]; exact List.Sublist.refl _)
  | method => exact h.same rfl rfl (fun _ => List.Sublist.refl _)
  | stream => exact h.same rfl rfl (fun _ => List.Sublist.refl _)
  | error => exact h
  | garbage => exact h
  | visitEnd id d c se =>
    exact h.same (by simp) (by simp) (fun k => by
      rw [finish_waiting]; exact List.Sublist.refl _)
  | visit => exact h.same (by simp) (by simp) (by simp)
  | visitThrow id d c se k =>
    exact h.same (by simp) (by simp) (fun j => by rw [finish_waiting]; simp)
  | timer =>
    refine h.same (by simp) (by simp) (fun k => ?_)
    unfold State.open_
    split
    · exact List.Sublist.refl _
    · by_cases e : k = s.nsock
      · subst e; simp
      · simp only [upd_ne _ _ e]; exact List.Sublist.refl _

/-! ## A message that is transmitted later waits for a connecting socket -/

theorem close_connecting (s : Client.State) (k : Nat) (h : (s.close.socks k).st = .connecting) :
    (s.socks k).st = .connecting := by
  unfold State.close at h
  split at h
  · rename_i j _
    by_cases e : k = j
    · subst e; simp only [upd_self] at h
      rcases Sock.close_st (s.socks k) with h' | h' <;> rw [h'] at h <;> cases h
    · simpa [upd_ne _ _ e] using h
  · exact h

theorem reopen_connecting (s : Client.State) (k : Nat) (h : (s.reopen.socks k).st = .connecting) :
    (s.socks k).st = .connecting := by
  unfold State.reopen at h; simp only at h
  split at h <;> exact close_connecting s k h

theorem unsubscribe_connecting (s : Client.State) (j k : Nat) (h : ((s.unsubscribe j).socks k).st = .connecting) :
    (s.socks k).st = .connecting := by
  unfold State.unsubscribe at h; simp only at h
  split at h
  · have := close_connecting _ k h
    exact this
  · exact h

theorem finish_connecting (s : Client.State) (l : List Nat) (k : Nat) (h : ((s.finish l).socks k).st = .connecting) :
    (s.socks k).st = .connecting := by
  induction l generalizing s with
  | nil => exact h
  | cons j l ih => exact unsubscribe_connecting s j k (ih _ h)

/-- A message waits for a socket that is being opened. -/
def Waits (x : Client.State) (k : Nat) (m : Msg) : Prop := (x.socks k).st = .connecting ∧ m ∈ (x.socks k).waiting

theorem call_late {x : Client.State} (hc : InvConn x) {m m' : Msg} (hne : m ≠ m') (k : Nat) :
    ((k, m) ∈ (x.openAndSend m').sent → (k, m) ∈ x.sent) ∧ (Waits (x.openAndSend m') k m → Waits x k m) := by
  cases hr : x.ready with
  | some j =>
    rw [openAndSend_ready hr]
    refine ⟨fun h => ?_, id⟩
    rcases List.mem_append.1 h with h | h
    · exact h
    · simp only [List.mem_singleton, Prod.mk.injEq] at h; exact absurd h.2 hne
  | none =>
    obtain ⟨j, h1, h2, h3, _⟩ := openAndSend_wait hc hr m'
    refine ⟨fun h => by rw [h1] at h; exact h, fun ⟨ha, hb⟩ => ?_⟩
    rw [h2] at hb
    have hb' : m ∈ (x.socks k).waiting := by
      split at hb
      · rcases List.mem_append.1 hb with h | h
        · exact h
        · exact absurd (List.mem_singleton.1 h) hne
      · exact hb
    rcases h3 k ha with h | h
    · exact ⟨h, hb'⟩
    · rw [h] at hb'; cases hb'

theorem step_late {x y : Client.State} {l : Client.Label} (hr : Client.Reachable x) (h : Client.step x l = some y)
    (hn : y.calls.length ≤ 2 ^ 53) {m : Msg} (hm : m ∈ x.calls) (k : Nat) :
    ((k, m) ∈ y.sent → (k, m) ∈ x.sent ∨ Waits x k m) ∧ (Waits y k m → Waits x k m) := by
  have hc := inv_conn hr
  have hsame : ∀ y : Client.State, y.sent = x.sent → (∀ j, (y.socks j).st = .connecting → (x.socks j).st = .connecting) →
      (∀ j, m ∈ (y.socks j).waiting → m ∈ (x.socks j).waiting) →
      ((k, m) ∈ y.sent → (k, m) ∈ x.sent ∨ Waits x k m) ∧ (Waits y k m → Waits x k m) := by
    intro y e1 e2 e3
    exact ⟨fun h => .inl (by rw [e1] at h; exact h), fun ⟨ha, hb⟩ => ⟨e2 k ha, e3 k hb⟩⟩
  have hnew : ∀ ns me a, x.calls.length < 2 ^ 53 → m ≠ x.newMsg ns me a := by
    intro ns me a hlt e
    exact new_id hr hlt m hm (by rw [e]; rfl)
  cases step_Step h with
  | request ns me a =>
    have hc' : InvConn ((x.issue (x.newMsg ns me a)).addSub .request (x.newMsg ns me a).id) := by
      refine InvConn.same hc ?_ ?_ ?_ ?_ ?_ <;> rfl
    have hlt : x.calls.length < 2 ^ 53 := by
      unfold State.request at hn
      rw [State.openAndSend_calls] at hn
      have : (x.calls ++ [x.newMsg ns me a]).length ≤ 2 ^ 53 := hn
      simp at this; omega
    obtain ⟨a1, a2⟩ := call_late hc' (hnew ns me a hlt) k
    exact ⟨fun h => .inl (a1 h), a2⟩
  | subscribe ns me a =>
    have hc' : InvConn { x.issue (x.newMsg ns me a) with
        stores := x.stores ++ [(x.newMsg ns me a).id] } := by
      refine InvConn.same hc ?_ ?_ ?_ ?_ ?_ <;> rfl
    have hlt : x.calls.length < 2 ^ 53 := by
      unfold State.subscribe at hn
      rw [State.openAndSend_calls] at hn
      have : (x.calls ++ [x.newMsg ns me a]).length ≤ 2 ^ 53 := hn
      simp at this; omega
    obtain ⟨a1, a2⟩ := call_late hc' (hnew ns me a hlt) k
    exact ⟨fun h => .inl (a1 h), a2⟩
  | attach => exact hsame _ rfl (fun _ h => h) (fun _ h => h)
  | detach j =>
    exact hsame _ (by simp) (unsubscribe_connecting x j) (fun i h => by rw [unsubscribe_waiting] at h; exact h)
  | opened j hp hk =>
    rw [foldl_openAndSend_ready (onOpen_ready hc hk)]
    refine ⟨fun h => ?_, fun ⟨ha, hb⟩ => ?_⟩
    · rcases List.mem_append.1 h with h | h
      · exact .inl h
      · obtain ⟨m', hm', e⟩ := List.mem_map.1 h
        cases e
        exact .inr ⟨hk, hm'⟩
    · by_cases e : k = j
      · subst e; simp [State.onOpen] at ha
      · simp only [State.onOpen, upd_ne _ _ e] at ha hb; exact ⟨ha, hb⟩
  | failed j =>
    refine hsame _ (by simp [State.onError]) (fun i h => ?_) (fun i h => ?_)
    · have := reopen_connecting _ i h
      by_cases e : i = j
      · subst e; simp [State.onError] at this
      · simpa [State.onError, upd_ne _ _ e] using this
    · rw [reopen_waiting] at h
      by_cases e : i = j
      · subst e; simp [State.onError] at h
      · simpa [State.onError, upd_ne _ _ e] using h
  | clean j =>
    refine hsame _ (by simp [State.goneClean]) (fun i h => ?_) (fun i h => ?_)
    · have := reopen_connecting _ i h
      by_cases e : i = j
      · subst e; simp [State.goneClean] at this
      · simpa [State.goneClean, upd_ne _ _ e] using this
    · rw [reopen_waiting] at h
      by_cases e : i = j
      · subst e; simpa [State.goneClean] using h
      · simpa [State.goneClean, upd_ne _ _ e] using h
  | closing j =>
    refine hsame _ rfl (fun i h => ?_) (fun i h => by rw [beginClose_waiting] at h; exact h)
    by_cases e : i = j
    · subst e
      simp only [State.beginClose, upd_self] at h
      exact absurd (.inl h) (Sock.close_not_live _)
    · simpa [State.beginClose, upd_ne _ _ e] using h
  | method => exact hsame _ rfl (fun _ h => h) (fun _ h => h)
  | stream => exact hsame _ rfl (fun _ h => h) (fun _ h => h)
  | error => exact hsame _ rfl (fun _ h => h) (fun _ h => h)
  | garbage => exact hsame _ rfl (fun _ h => h) (fun _ h => h)
  | visitEnd id d c se =>
    exact hsame _ (by simp) (fun i h => finish_connecting { x with phase := .idle } se i h)
      (fun i h => by rw [finish_waiting] at h; exact h)
  | visit => exact hsame _ (by simp) (fun i h => by simpa using h) (fun i h => by simpa using h)
  | visitThrow id d c se j =>
    exact hsame _ (by simp) (fun i h => by simpa using finish_connecting _ se i h)
      (fun i h => by rw [finish_waiting] at h; simpa using h)
  | timer =>
    refine ⟨fun h => .inl (by simpa using h), fun ⟨ha, hb⟩ => ?_⟩
    unfold State.open_ at ha hb
    split at ha
    · simp only [*] at hb; exact ⟨ha, hb⟩
    · simp only [*] at hb
      by_cases e : k = x.nsock
      · subst e; simp at hb
      · simp only [upd_ne _ _ e] at ha hb; exact ⟨ha, hb⟩

theorem run_late {ls : List Client.Label} : ∀ {x y : Client.State}, Client.Reachable x → Client.run x ls = some y →
    y.calls.length ≤ 2 ^ 53 → ∀ {m : Msg}, m ∈ x.calls → ∀ k,
    ((k, m) ∈ y.sent → (k, m) ∈ x.sent ∨ Waits x k m) ∧ (Waits y k m → Waits x k m) := by
  induction ls with
  | nil => intro x y _ h _ m _ k; cases h; exact ⟨.inl, id⟩
  | cons l ls ih =>
    intro x y hr h hn m hm k
    simp only [Client.run] at h
    cases h1 : Client.step x l with
    | none => rw [h1] at h; cases h
    | some z =>
      rw [h1] at h
      have hz : z.calls.length ≤ 2 ^ 53 := Nat.le_trans (run_calls h).length_le hn
      have hx : Client.run x [l] = some z := by simp [Client.run, h1]
      obtain ⟨a1, a2⟩ := ih (hr.step h1) h hn ((run_calls hx).subset hm) k
      obtain ⟨b1, b2⟩ := step_late hr h1 hz hm k
      refine ⟨fun h => ?_, fun h => b2 (a2 h)⟩
      rcases a1 h with h | h
      · exact b1 h
      · exact .inr (b2 h)

/-- What a call does when there is an open socket. -/
theorem call_ready {σ C : Type} {s' : State σ C} {x : Client.State} {i k : Nat} {l : Client.Label} {ns m : Str} {a : List Json}
    (hl : l = .request ns m a ∨ l = .subscribe ns m a) (h : Client.step x l = some (s'.clients i)) (hk : x.ready = some k) :
    (k, SystemSpec.lastMessage s' i ns m a) ∈ (s'.clients i).sent := by
  have hr : (s'.clients i).reqId = jsInc x.reqId := by
    rcases hl with rfl | rfl <;> simp only [Client.step, Option.some.injEq] at h <;> rw [← h]
    · unfold State.request; simp [State.addSub, State.issue, State.newMsg]
    · unfold State.subscribe; simp [State.issue, State.newMsg]
  unfold SystemSpec.lastMessage
  rw [hr]
  rcases hl with rfl | rfl <;> simp only [Client.step, Option.some.injEq] at h <;> rw [← h]
  · unfold State.request
    rw [openAndSend_ready (s := (x.issue (x.newMsg ns m a)).addSub .request (x.newMsg ns m a).id) (k := k) hk]
    exact List.mem_append_right _ (List.mem_cons_self ..)
  · unfold State.subscribe
    rw [openAndSend_ready (s := { x.issue (x.newMsg ns m a) with
        stores := x.stores ++ [(x.newMsg ns m a).id] }) (k := k) hk]
    exact List.mem_append_right _ (List.mem_cons_self ..)

/-- What a call does while a socket is being opened. -/
theorem call_connecting_aux {x y : Client.State} {k : Nat} {l : Client.Label} {ns m : Str} {a : List Json} (hc : InvConn x)
    (hl : l = .request ns m a ∨ l = .subscribe ns m a) (h : Client.step x l = some y)
    (hk : (x.socks k).st = .connecting) : y.socket = some k ∧ y.sent = x.sent := by
  have hs := (hc.live k).1 (.inl hk)
  rcases hl with rfl | rfl <;> simp only [Client.step, Option.some.injEq] at h <;> rw [← h]
  · have hc' : InvConn ((x.issue (x.newMsg ns m a)).addSub .request (x.newMsg ns m a).id) := by
      refine InvConn.same hc ?_ ?_ ?_ ?_ ?_ <;> rfl
    have hr : ((x.issue (x.newMsg ns m a)).addSub .request (x.newMsg ns m a).id).ready = none := by
      show x.ready = none
      simp [State.ready, hs, hk]
    obtain ⟨_, h1, _, _, h4⟩ := openAndSend_wait hc' hr (x.newMsg ns m a)
    exact ⟨h4 k hk, h1⟩
  · have hc' : InvConn { x.issue (x.newMsg ns m a) with
        stores := x.stores ++ [(x.newMsg ns m a).id] } := by
      refine InvConn.same hc ?_ ?_ ?_ ?_ ?_ <;> rfl
    have hr : State.ready { x.issue (x.newMsg ns m a) with
        stores := x.stores ++ [(x.newMsg ns m a).id] } = none := by
      show x.ready = none
      simp [State.ready, hs, hk]
    obtain ⟨_, h1, _, _, h4⟩ := openAndSend_wait hc' hr (x.newMsg ns m a)
    exact ⟨h4 k hk, h1⟩

theorem call_connecting {x y : Client.State} {k : Nat} {l : Client.Label} {ns m : Str} {a : List Json} (hc : InvConn x)
    (hl : l = .request ns m a ∨ l = .subscribe ns m a) (h : Client.step x l = some y)
    (hk : (x.socks k).st = .connecting) : y.socket = some k := (call_connecting_aux hc hl h hk).1

theorem call_connecting_sent {x y : Client.State} {k : Nat} {l : Client.Label} {ns m : Str} {a : List Json} (hc : InvConn x)
    (hl : l = .request ns m a ∨ l = .subscribe ns m a) (h : Client.step x l = some y)
    (hk : (x.socks k).st = .connecting) {p : Nat × Msg} (hp : p ∈ y.sent) : p ∈ x.sent := by
  rw [← (call_connecting_aux hc hl h hk).2]; exact hp

/-! ## The whole system -/

open Verif.ServerSpec Verif.SystemSpec

variable {σ C : Type}

theorem callsOf_eq {sv : Service σ C} {b : σ} {s : State σ C} (hr : Reachable sv b s) (i : Nat) :
    callsOf s i = (s.clients i).calls.map msgInput :=
  List.map_congr_left (fun _ hm => (msgInput_eq (call_id_le (hr.client i) hm)).symm)

/-- On every connection, requests are executed in the order of the calls. -/
theorem conn_order {sv : Service σ C} {b : σ} {s : State σ C} (hr : Reachable sv b s) {c i k : Nat}
    (ho : s.owner c = some (i, k)) : (executedOn s c).Sublist (callsOf s i) := by
  have h1 : (executedOn s c).Sublist (acceptedOn s.server c) :=
    (((Server.inv_queue hr.server).2.sublist).filter _).map _
  have h2 := (inv_up hr c i k ho).acc.sublist
  have h3 : (sentOn (s.clients i) k).Sublist (s.clients i).calls :=
    (List.sublist_append_left _ _).trans (inv_perSock (hr.client i) k)
  rw [callsOf_eq hr]
  exact h1.trans (h2.trans (((List.take_sublist _ _).trans h3).map _))

/-- The id of a request. -/
def idOf : Server.Input → Nat
  | .ok (.exec id _) => id
  | _ => 0

theorem callsOf_ids (s : State σ C) (i : Nat) : (callsOf s i).map idOf = (s.clients i).calls.map (·.id) := by
  unfold callsOf
  rw [List.map_map]
  rfl

theorem order_pair {α : Type} {a b : α} {p q : List α} (hnd : (p ++ b :: q).Nodup) (hs : [b, a].Sublist (p ++ b :: q))
    (ha : a ∈ p) : False := by
  rw [List.nodup_append] at hnd
  obtain ⟨_, _, hne⟩ := hnd
  obtain ⟨l₁, l₂, e, h1, h2⟩ := List.sublist_append_iff.1 hs
  cases l₁ with
  | nil =>
    simp only [List.nil_append] at e
    exact hne a ha a (h2.subset (by rw [← e]; simp)) rfl
  | cons x l₁ =>
    simp only [List.cons_append, List.cons.injEq] at e
    exact hne x (h1.subset (by simp)) b (by simp) e.1.symm

/-- Calls carried by one connection are executed in order. -/
theorem same_conn {sv : Service σ C} {b : σ} {s : State σ C} (hr : Reachable sv b s) {c i k : Nat}
    (hn : (s.clients i).calls.length ≤ 2 ^ 53) (ho : s.owner c = some (i, k)) {A B : Msg} {p q : List Msg}
    (hcalls : (s.clients i).calls = p ++ B :: q) (hA : A ∈ p) {before after : List (Nat × Server.Input)}
    (hlog : s.server.log = before ++ (c, requestOf B.id B.ns B.method B.args) :: after)
    (hmem : (c, requestOf A.id A.ns A.method A.args) ∈ s.server.log) :
    (c, requestOf A.id A.ns A.method A.args) ∈ before := by
  rw [hlog] at hmem
  have hnd := calls_nodup (hr.client i) hn
  rcases List.mem_append.1 hmem with h | h
  · exact h
  exfalso
  rw [hcalls, List.map_append, List.map_cons] at hnd
  have hAid : A.id ∈ p.map (·.id) := List.mem_map.2 ⟨_, hA, rfl⟩
  rcases List.mem_cons.1 h with e | h
  · simp only [requestOf, Prod.mk.injEq, Except.ok.injEq, Request.exec.injEq] at e
    rw [List.nodup_append] at hnd
    exact hnd.2.2 _ hAid B.id (by simp) e.2.1
  · have hsub := (conn_order hr ho).map idOf
    rw [callsOf_ids, hcalls, List.map_append, List.map_cons] at hsub
    refine order_pair hnd (List.Sublist.trans ?_ hsub) hAid
    unfold executedOn
    rw [hlog, List.filter_append, List.map_append, List.map_append]
    refine List.Sublist.trans ?_ (List.sublist_append_right _ _)
    rw [List.filter_cons]
    simp only [beq_self_eq_true, if_true, List.map_cons]
    refine .cons_cons _ (List.singleton_sublist.2 ?_)
    exact List.mem_map.2 ⟨_, List.mem_map.2 ⟨_, List.mem_filter.2 ⟨h, by simp⟩, rfl⟩, rfl⟩

end Verif.System
