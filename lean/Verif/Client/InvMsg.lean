import Verif.Client.InvSub

/-!
# Invariants of the client: where messages are, and deliveries when callbacks throw
-/

namespace Verif.Client
open Verif Verif.ClientSpec

/-- Induction over histories. -/
theorem run_induct {P : List Label → State → Prop} (h0 : P [] init)
    (hs : ∀ ls l s s', run init ls = some s → P ls s → step s l = some s' → P (ls ++ [l]) s')
    {ls : List Label} {s : State} (h : run init ls = some s) : P ls s := by
  have key : ∀ (n : Nat) (ls : List Label) (s : State), ls.length = n → run init ls = some s →
      P ls s := by
    intro n
    induction n with
    | zero =>
      intro ls s hn h
      rw [List.length_eq_zero_iff] at hn; subst hn
      simp only [run, Option.some.injEq] at h; exact h ▸ h0
    | succ n ih =>
      intro ls s hn h
      rcases List.eq_nil_or_concat ls with rfl | ⟨ls', l, rfl⟩
      · simp at hn
      · rw [List.concat_eq_append] at h hn ⊢
        rw [run_append] at h
        cases h1 : run init ls' with
        | none => rw [h1] at h; cases h
        | some s1 =>
          rw [h1] at h
          simp only [Option.bind_some, run] at h
          cases h2 : step s1 l with
          | none => rw [h2] at h; cases h
          | some s2 =>
            rw [h2] at h
            simp only [Option.some.injEq] at h; subst h
            exact hs ls' l s1 s2 h1 (ih ls' s1 (by simpa using hn) h1) h2
  exact key _ ls s rfl h

/-! ## Messages are never duplicated or invented -/

/-- All continuations waiting for some socket. -/
def waitingAll (f : Nat → Sock) (n : Nat) : List Msg := (List.range n).flatMap (fun k => (f k).waiting)

theorem waitingAll_congr {f g : Nat → Sock} {n : Nat} (h : ∀ k, (f k).waiting = (g k).waiting) :
    waitingAll f n = waitingAll g n := by
  unfold waitingAll; congr 1; funext k; exact h k

theorem waitingAll_succ (f : Nat → Sock) (n : Nat) :
    waitingAll f (n + 1) = waitingAll f n ++ (f n).waiting := by
  simp [waitingAll, List.range_succ]

theorem waitingAll_upd_ge {f : Nat → Sock} {n k : Nat} (x : Sock) (h : n ≤ k) :
    waitingAll (upd f k x) n = waitingAll f n := by
  induction n with
  | zero => rfl
  | succ n ih =>
    rw [waitingAll_succ, waitingAll_succ, ih (Nat.le_of_succ_le h), upd_ne _ _ (by omega)]

theorem waitingAll_upd {f : Nat → Sock} {n k : Nat} (x : Sock) (h : k < n) :
    (waitingAll (upd f k x) n ++ (f k).waiting).Perm (waitingAll f n ++ x.waiting) := by
  induction n with
  | zero => omega
  | succ n ih =>
    rw [waitingAll_succ, waitingAll_succ]
    by_cases e : k = n
    · subst e
      rw [waitingAll_upd_ge x (Nat.le_refl _), upd_self, List.append_assoc, List.append_assoc]
      exact List.Perm.append_left _ List.perm_append_comm
    · rw [upd_ne _ _ (Ne.symm e)]
      have := ih (by omega)
      calc (waitingAll (upd f k x) n ++ (f n).waiting ++ (f k).waiting).Perm
            (waitingAll (upd f k x) n ++ (f k).waiting ++ (f n).waiting) := by
              rw [List.append_assoc, List.append_assoc]
              exact List.Perm.append_left _ List.perm_append_comm
        _ |>.Perm (waitingAll f n ++ x.waiting ++ (f n).waiting) := this.append_right _
        _ |>.Perm (waitingAll f n ++ (f n).waiting ++ x.waiting) := by
              rw [List.append_assoc, List.append_assoc]
              exact List.Perm.append_left _ List.perm_append_comm

/-- Every message handed to the client is in exactly one place. -/
def Accounted (s : State) : Prop :=
  s.calls.Perm (s.sent.map (·.2) ++ s.dropped ++ waitingAll s.socks s.nsock)

theorem Accounted.same {s s' : State} (h : Accounted s) (h1 : s'.calls = s.calls)
    (h2 : s'.sent = s.sent) (h3 : s'.dropped = s.dropped)
    (h4 : ∀ k, (s'.socks k).waiting = (s.socks k).waiting) (h5 : s'.nsock = s.nsock) :
    Accounted s' := by
  unfold Accounted at *
  rw [h1, h2, h3, h5, waitingAll_congr h4]; exact h

theorem close_waiting (s : State) (k : Nat) : (s.close.socks k).waiting = (s.socks k).waiting := by
  unfold State.close
  split
  · rename_i j _
    by_cases e : k = j
    · subst e; simp
    · simp [upd_ne _ _ e]
  · rfl

theorem reopen_waiting (s : State) (k : Nat) : (s.reopen.socks k).waiting = (s.socks k).waiting := by
  unfold State.reopen; simp only; split <;> exact close_waiting s k

theorem unsubscribe_waiting (s : State) (j k : Nat) :
    ((s.unsubscribe j).socks k).waiting = (s.socks k).waiting := by
  unfold State.unsubscribe; simp only; split
  · exact close_waiting _ k
  · rfl

theorem finish_waiting (s : State) (l : List Nat) (k : Nat) :
    ((s.finish l).socks k).waiting = (s.socks k).waiting := by
  induction l generalizing s with
  | nil => rfl
  | cons j l ih => simp only [State.finish]; rw [ih, unsubscribe_waiting]

theorem open_waitingAll {s : State} (h : InvConn s) :
    waitingAll s.open_.socks s.open_.nsock = waitingAll s.socks s.nsock := by
  have _ := h
  unfold State.open_
  split
  · rfl
  · simp only [waitingAll_succ, upd_self, List.append_nil]
    exact waitingAll_upd_ge _ (Nat.le_refl _)

@[simp] theorem open_sent (s : State) : s.open_.sent = s.sent := by simp

/-- `open_and_send` puts the message in exactly one place. -/
theorem openAndSend_places {s : State} (h : InvConn s) (m : Msg) :
    ((s.openAndSend m).sent.map (·.2) ++ (s.openAndSend m).dropped ++
      waitingAll (s.openAndSend m).socks (s.openAndSend m).nsock).Perm
    (s.sent.map (·.2) ++ s.dropped ++ waitingAll s.socks s.nsock ++ [m]) := by
  cases hr : s.ready with
  | some k =>
    rw [openAndSend_ready hr]
    simp only [List.map_append, List.map_singleton]
    rw [List.append_assoc, List.append_assoc, List.append_assoc, List.append_assoc]
    refine List.Perm.append_left _ ?_
    rw [← List.append_assoc s.dropped]
    exact List.perm_append_comm
  | none =>
    obtain ⟨k, hk⟩ := open_openP s
    have ho := h.open_ hr
    have hlt : k < s.open_.nsock := by
      apply Nat.lt_of_not_le
      intro hge
      have := ho.pend k hk
      rw [ho.fresh k hge] at this; simp [noSock] at this
    have e : s.openAndSend m = { s.open_ with
        socks := (upd s.open_.socks k
          { s.open_.socks k with waiting := (s.open_.socks k).waiting ++ [m] }) } := by
      unfold State.openAndSend
      simp only [hr, hk]
    rw [e]
    simp only [open_sent, State.open__dropped]
    rw [← open_waitingAll h, List.append_assoc _ _ [m]]
    refine List.Perm.append_left _ ?_
    have := waitingAll_upd (f := s.open_.socks)
      { s.open_.socks k with waiting := (s.open_.socks k).waiting ++ [m] } hlt
    simp only at this
    have h2 : (waitingAll s.open_.socks s.open_.nsock ++ ((s.open_.socks k).waiting ++ [m])).Perm
        (waitingAll s.open_.socks s.open_.nsock ++ [m] ++ (s.open_.socks k).waiting) := by
      rw [List.append_assoc]
      exact List.Perm.append_left _ List.perm_append_comm
    exact (List.perm_append_right_iff _).1 (this.trans h2)

theorem inv_accounted {s : State} (hr : Reachable s) : Accounted s := by
  refine hr.induct (P := Accounted) (List.Perm.refl []) ?_
  intro s l s' hr h hst
  have hc := inv_conn hr
  cases step_Step hst with
  | request ns m a =>
    have hc' : InvConn ((s.issue (s.newMsg ns m a)).addSub .request (s.newMsg ns m a).id) := by
      refine InvConn.same hc ?_ ?_ ?_ ?_ ?_ <;> rfl
    unfold Accounted State.request
    rw [State.openAndSend_calls]
    exact (List.Perm.append_right [s.newMsg ns m a] h).trans (openAndSend_places hc' _).symm
  | subscribe ns m a =>
    have hc' : InvConn { s.issue (s.newMsg ns m a) with
        stores := s.stores ++ [(s.newMsg ns m a).id] } := by
      refine InvConn.same hc ?_ ?_ ?_ ?_ ?_ <;> rfl
    unfold Accounted State.subscribe
    rw [State.openAndSend_calls]
    exact (List.Perm.append_right [s.newMsg ns m a] h).trans (openAndSend_places hc' _).symm
  | attach => exact h.same rfl rfl rfl (fun _ => rfl) rfl
  | detach => exact h.same (by simp) (by simp) (by simp) (unsubscribe_waiting _ _) (by simp)
  | opened k hp hk =>
    rw [foldl_openAndSend_ready (onOpen_ready hc hk)]
    have hlt : k < s.nsock := Nat.lt_of_not_le fun hge => by
      rw [hc.fresh k hge] at hk; simp [noSock] at hk
    unfold Accounted at *
    simp only [State.onOpen, List.map_append, List.map_map]
    have e : List.map ((fun x => x.2) ∘ fun m => (k, m)) (s.socks k).waiting = (s.socks k).waiting := by
      rw [show ((fun x : Nat × Msg => x.2) ∘ fun m => (k, m)) = fun m => m from rfl]
      exact List.map_id _
    rw [e]
    refine h.trans ?_
    have := waitingAll_upd (f := s.socks) { st := .opened, wasOpen := true, waiting := [] } hlt
    simp only [List.append_nil] at this
    refine (List.Perm.append_left (s.sent.map (·.2) ++ s.dropped) this.symm).trans ?_
    rw [List.append_assoc, List.append_assoc, List.append_assoc]
    refine List.Perm.append_left _ ?_
    rw [← List.append_assoc]
    exact List.perm_append_comm
  | failed k hp hk =>
    refine Accounted.same (s := s.onError k) ?_ (by simp) (by simp) (by simp) (reopen_waiting _)
      (by simp)
    have hlt : k < s.nsock := Nat.lt_of_not_le fun hge => by
      rw [hc.fresh k hge] at hk; simp [noSock] at hk
    unfold Accounted at *
    simp only [State.onError]
    refine h.trans ?_
    have := waitingAll_upd (f := s.socks) { s.socks k with st := .closed, waiting := [] } hlt
    simp only [List.append_nil] at this
    rw [List.append_assoc, List.append_assoc, List.append_assoc]
    refine List.Perm.append_left _ (List.Perm.append_left _ ?_)
    exact this.symm.trans List.perm_append_comm
  | clean k =>
    refine Accounted.same (s := s.goneClean k) ?_ (by simp) (by simp) (by simp) (reopen_waiting _)
      (by simp)
    refine h.same rfl rfl rfl ?_ rfl
    intro j
    simp only [State.goneClean]
    by_cases e : j = k
    · subst e; simp
    · simp [upd_ne _ _ e]
  | closing k => exact h.same rfl rfl rfl (beginClose_waiting s k) rfl
  | method => exact h.same rfl rfl rfl (fun _ => rfl) rfl
  | stream => exact h.same rfl rfl rfl (fun _ => rfl) rfl
  | error => exact h
  | garbage => exact h
  | visitEnd id d c settled =>
    exact Accounted.same h (by simp) (by simp) (by simp)
      (fun k => finish_waiting { s with phase := .idle } settled k) (by simp)
  | visit => exact h.same (by simp) (by simp) (by simp) (by simp) (by simp)
  | visitThrow id d c settled k =>
    exact h.same (by simp) (by simp) (by simp)
      (fun j => by rw [finish_waiting]; simp) (by simp)
  | timer =>
    unfold Accounted at *
    rw [open_waitingAll hc]; simpa using h

/-! ## Order of sending while nothing closes -/

/-- An open socket excludes a pending promise. -/
def OpenDone (s : State) : Prop := ∀ k, (s.socks k).st = .opened → s.openP = none

theorem OpenDone.same {s s' : State} (h : OpenDone s)
    (h1 : ∀ k, (s'.socks k).st = .opened → (s.socks k).st = .opened)
    (h2 : s'.openP = s.openP) : OpenDone s' := fun k hk => by rw [h2]; exact h k (h1 k hk)

theorem close_st (s : State) (k : Nat) (h : (s.close.socks k).st = .opened) :
    (s.socks k).st = .opened := by
  unfold State.close at h
  split at h
  · rename_i j _
    by_cases e : k = j
    · subst e; simp only [upd_self] at h
      rcases Sock.close_st (s.socks k) with h' | h' <;> rw [h'] at h <;> cases h
    · simpa [upd_ne _ _ e] using h
  · exact h

theorem reopen_st (s : State) (k : Nat) (h : (s.reopen.socks k).st = .opened) :
    (s.socks k).st = .opened := by
  unfold State.reopen at h; simp only at h
  split at h <;> exact close_st s k h

theorem unsubscribe_st (s : State) (j k : Nat) (h : ((s.unsubscribe j).socks k).st = .opened) :
    (s.socks k).st = .opened := by
  unfold State.unsubscribe at h; simp only at h
  split at h
  · have := close_st _ k h
    exact this
  · exact h

theorem finish_st (s : State) (l : List Nat) (k : Nat) (h : ((s.finish l).socks k).st = .opened) :
    (s.socks k).st = .opened := by
  induction l generalizing s with
  | nil => exact h
  | cons j l ih => exact unsubscribe_st s j k (ih _ h)

theorem ready_none_no_open {s : State} (hc : InvConn s) (hr : s.ready = none) (k : Nat) :
    (s.socks k).st ≠ .opened := by
  intro hk
  have := (hc.live k).1 (.inr hk)
  simp [State.ready, this, hk] at hr

theorem OpenDone.open_ {s : State} (hc : InvConn s) (hr : s.ready = none) :
    ∀ k, (s.open_.socks k).st ≠ .opened := by
  intro k
  unfold State.open_
  split
  · exact ready_none_no_open hc hr k
  · by_cases e : k = s.nsock
    · subst e; simp
    · simp only [upd_ne _ _ e]; exact ready_none_no_open hc hr k

theorem OpenDone.openAndSend {s : State} (h : OpenDone s) (hc : InvConn s) (m : Msg) :
    OpenDone (s.openAndSend m) := by
  cases hr : s.ready with
  | some k => rw [openAndSend_ready hr]; exact h
  | none =>
    have hno := OpenDone.open_ hc hr
    intro k hk
    exfalso
    unfold State.openAndSend at hk
    simp only [hr] at hk
    split at hk
    · rename_i j _
      by_cases e : k = j
      · subst e; simp only [upd_self] at hk; exact hno k hk
      · simp only [upd_ne _ _ e] at hk; exact hno k hk
    · exact hno k hk

theorem inv_openDone {s : State} (hr : Reachable s) : OpenDone s := by
  refine hr.induct (P := OpenDone) (fun _ _ => rfl) ?_
  intro s l s' hr h hst
  have hc := inv_conn hr
  cases step_Step hst with
  | request ns m a =>
    have hc' : InvConn ((s.issue (s.newMsg ns m a)).addSub .request (s.newMsg ns m a).id) := by
      refine InvConn.same hc ?_ ?_ ?_ ?_ ?_ <;> rfl
    refine OpenDone.openAndSend ?_ hc' _
    exact fun k hk => h k hk
  | subscribe ns m a =>
    have hc' : InvConn { s.issue (s.newMsg ns m a) with
        stores := s.stores ++ [(s.newMsg ns m a).id] } := by
      refine InvConn.same hc ?_ ?_ ?_ ?_ ?_ <;> rfl
    refine OpenDone.openAndSend ?_ hc' _
    exact fun k hk => h k hk
  | attach => exact h.same (fun _ h => h) rfl
  | detach j => exact h.same (unsubscribe_st s j) (by simp)
  | opened k hp hk =>
    rw [foldl_openAndSend_ready (onOpen_ready hc hk)]
    intro _ _; rfl
  | failed k => intro _ _; simp [State.onError]
  | clean k =>
    refine h.same (fun j hj => ?_) (by simp [State.goneClean])
    have := reopen_st _ j hj
    by_cases e : j = k
    · subst e; simp [State.goneClean] at this
    · simpa [State.goneClean, upd_ne _ _ e] using this
  | closing k => exact h.same (beginClose_opened s k) rfl
  | method => exact h.same (fun _ h => h) rfl
  | stream => exact h.same (fun _ h => h) rfl
  | error => exact h
  | garbage => exact h
  | visitEnd id d c se => exact h.same (fun k hk => finish_st { s with phase := .idle } se k hk) (by simp)
  | visit => exact h.same (by simp) (by simp)
  | visitThrow id d c se k hp hn =>
    refine h.same (fun j hj => ?_) (by simp)
    have := finish_st _ se j hj
    simpa using this
  | timer d hp ht =>
    have hno := OpenDone.open_ hc (by
      have := hc.timer (by rw [ht]; simp)
      simp [State.ready, this])
    intro k hk; exact absurd hk (hno k)

/-- Messages waiting for the pending promise. -/
def State.pendingMsgs (s : State) : List Msg :=
  match s.openP with
  | some k => (s.socks k).waiting
  | none => []

/-- Without close events: what was sent, then what is waiting. -/
structure InOrder (s : State) : Prop where
  order : s.calls = s.sent.map (·.2) ++ s.pendingMsgs
  owner : ∀ k, (s.socks k).waiting ≠ [] → s.openP = some k

theorem InOrder.same {s s' : State} (h : InOrder s) (h1 : s'.calls = s.calls)
    (h2 : s'.sent = s.sent) (h3 : ∀ k, (s'.socks k).waiting = (s.socks k).waiting)
    (h4 : s'.openP = s.openP) : InOrder s' := by
  refine ⟨?_, ?_⟩
  · rw [h1, h2, h.order]
    unfold State.pendingMsgs
    rw [h4]
    cases s.openP <;> simp [h3]
  · intro k hk; rw [h4]; rw [h3] at hk; exact h.owner k hk

theorem open_pending {s : State} (h : InvConn s) :
    s.open_.pendingMsgs = s.pendingMsgs ∧
    ∀ k, (s.open_.socks k).waiting = (s.socks k).waiting := by
  have hw : ∀ k, (s.open_.socks k).waiting = (s.socks k).waiting := by
    intro k
    unfold State.open_
    split
    · rfl
    · by_cases e : k = s.nsock
      · subst e; simp [h.fresh _ (Nat.le_refl _), noSock]
      · simp [upd_ne _ _ e]
  refine ⟨?_, hw⟩
  unfold State.pendingMsgs
  cases ho : s.openP with
  | some k =>
    have : s.open_.openP = some k := by unfold State.open_; simp [ho]
    rw [this]; simp [hw]
  | none =>
    have : s.open_.openP = some s.nsock := by unfold State.open_; simp [ho]
    rw [this]
    simp only
    rw [hw, h.fresh _ (Nat.le_refl _)]; rfl

theorem openAndSend_order {s : State} (hc : InvConn s) (ho : OpenDone s)
    (hw : ∀ k, (s.socks k).waiting ≠ [] → s.openP = some k) (m : Msg) :
    (s.openAndSend m).sent.map (·.2) ++ (s.openAndSend m).pendingMsgs =
      s.sent.map (·.2) ++ s.pendingMsgs ++ [m] ∧
    ∀ k, ((s.openAndSend m).socks k).waiting ≠ [] → (s.openAndSend m).openP = some k := by
  cases hr : s.ready with
  | some k =>
    have hk : (s.socks k).st = .opened := by
      unfold State.ready at hr
      split at hr
      · split at hr
        · simp only [Option.some.injEq] at hr; subst hr; assumption
        · cases hr
      · cases hr
    have hop := ho k hk
    rw [openAndSend_ready hr]
    refine ⟨?_, fun k hk => hw k hk⟩
    simp [State.pendingMsgs, hop]
  | none =>
    obtain ⟨k, hk⟩ := open_openP s
    have e : s.openAndSend m = { s.open_ with
        socks := (upd s.open_.socks k
          { s.open_.socks k with waiting := (s.open_.socks k).waiting ++ [m] }) } := by
      unfold State.openAndSend
      simp only [hr, hk]
    obtain ⟨hp, hww⟩ := open_pending hc
    rw [e]
    refine ⟨?_, ?_⟩
    · have h2 : s.open_.pendingMsgs = (s.open_.socks k).waiting := by simp [State.pendingMsgs, hk]
      rw [← hp, h2]
      simp [State.pendingMsgs, hk]
    · intro j hj
      simp only at hj ⊢
      by_cases e : j = k
      · subst e; exact hk
      · rw [upd_ne _ _ e, hww] at hj
        have := hw j hj
        have h3 : s.open_.openP = some j := by unfold State.open_; simp [this]
        exact h3

/-- No close event so far. -/
def Label.isClosed : Label → Bool
  | .closed _ _ => true
  | _ => false

theorem inv_order {ls : List Label} {s : State} (h : run init ls = some s)
    (hn : ∀ l ∈ ls, l.isClosed = false) : InOrder s := by
  refine run_induct (P := fun ls s => (∀ l ∈ ls, l.isClosed = false) → InOrder s) ?_ ?_ h hn
  · intro _; exact ⟨rfl, fun k hk => absurd rfl hk⟩
  intro ls l s s' hrun ih hst hn
  have hr : Reachable s := ⟨ls, hrun⟩
  have h := ih (fun l hl => hn l (List.mem_append_left _ hl))
  have hl := hn l (by simp)
  have hc := inv_conn hr
  have ho := inv_openDone hr
  cases step_Step hst with
  | request ns m a =>
    have hc' : InvConn ((s.issue (s.newMsg ns m a)).addSub .request (s.newMsg ns m a).id) := by
      refine InvConn.same hc ?_ ?_ ?_ ?_ ?_ <;> rfl
    obtain ⟨h1, h2⟩ := openAndSend_order hc' (fun k hk => ho k hk) (fun k hk => h.owner k hk)
      (s.newMsg ns m a)
    refine ⟨?_, h2⟩
    unfold State.request
    rw [h1, State.openAndSend_calls]
    show s.calls ++ [_] = _
    rw [h.order]; rfl
  | subscribe ns m a =>
    have hc' : InvConn { s.issue (s.newMsg ns m a) with
        stores := s.stores ++ [(s.newMsg ns m a).id] } := by
      refine InvConn.same hc ?_ ?_ ?_ ?_ ?_ <;> rfl
    obtain ⟨h1, h2⟩ := openAndSend_order hc' (fun k hk => ho k hk) (fun k hk => h.owner k hk)
      (s.newMsg ns m a)
    refine ⟨?_, h2⟩
    unfold State.subscribe
    rw [h1, State.openAndSend_calls]
    show s.calls ++ [_] = _
    rw [h.order]; rfl
  | attach => exact h.same rfl rfl (fun _ => rfl) rfl
  | detach j => exact h.same (by simp) (by simp) (unsubscribe_waiting _ _) (by simp)
  | opened k hp hk =>
    rw [foldl_openAndSend_ready (onOpen_ready hc hk)]
    have hop := hc.conn k hk
    refine ⟨?_, ?_⟩
    · simp only [State.onOpen, State.pendingMsgs, List.append_nil, List.map_append, List.map_map]
      rw [show ((fun x : Nat × Msg => x.2) ∘ fun m => (k, m)) = fun m => m from rfl,
        show List.map (fun m : Msg => m) (s.socks k).waiting = (s.socks k).waiting from List.map_id _]
      rw [h.order]; simp [State.pendingMsgs, hop]
    · intro j hj
      simp only [State.onOpen] at hj
      by_cases e : j = k
      · subst e; simp at hj
      · rw [upd_ne _ _ e] at hj
        have := h.owner j hj
        rw [hop] at this; injection this with this; exact absurd this.symm e
  | failed k => simp [Label.isClosed] at hl
  | clean k => simp [Label.isClosed] at hl
  | closing k => exact h.same rfl rfl (beginClose_waiting s k) rfl
  | method => exact h.same rfl rfl (fun _ => rfl) rfl
  | stream => exact h.same rfl rfl (fun _ => rfl) rfl
  | error => exact h
  | garbage => exact h
  | visitEnd id d c se =>
    exact h.same (by simp) (by simp) (fun k => finish_waiting { s with phase := .idle } se k) (by simp)
  | visit => exact h.same (by simp) (by simp) (by simp) (by simp)
  | visitThrow id d c se k =>
    exact h.same (by simp) (by simp) (fun j => by rw [finish_waiting]; simp) (by simp)
  | timer =>
    obtain ⟨h1, h2⟩ := open_pending hc
    refine ⟨?_, ?_⟩
    · rw [h1]; simpa using h.order
    · intro k hk
      rw [h2] at hk
      have := h.owner k hk
      unfold State.open_; simp [this]

/-! ## Deliveries in every history, throwing callbacks included -/

/-- Subscription `k` got a part of what it is due. -/
def gotSome (s : State) (k : Nat) : Prop :=
  (s.subs k).got.Sublist (due s k) ∧ ((s.subs k).kind = .request → (s.subs k).got.length ≤ 1)

/-- Invariant: all subscriptions got a part of what they are due. -/
structure InvSome (s : State) : Prop where
  bound : ∀ k, k < s.nsub → (s.subs k).from_ ≤ s.doneCount ∧ visible s k ≤ s.received.length
  got : ∀ k, k < s.nsub → gotSome s k

theorem gotSome_of_le {s s' : State} {k : Nat} (h : gotSome s k) (h1 : (s'.subs k).got = (s.subs k).got)
    (hk : (s'.subs k).kind = (s.subs k).kind) (hi : (s'.subs k).id = (s.subs k).id)
    (hf : (s'.subs k).from_ = (s.subs k).from_)
    (h2 : visible s k ≤ visible s' k)
    (h3 : ∃ r, s'.received = s.received ++ r) (hb : visible s k ≤ s.received.length) :
    gotSome s' k := by
  obtain ⟨r, hr⟩ := h3
  refine ⟨?_, by rw [h1, hk]; exact h.2⟩
  rw [h1]
  refine h.1.trans ?_
  unfold due
  rw [hi, hf]
  obtain ⟨t, ht⟩ := window_prefix (l := s'.received) (a := (s.subs k).from_) h2
  rw [ht, dataOf_append]
  have : window s'.received (s.subs k).from_ (visible s k) =
      window s.received (s.subs k).from_ (visible s k) := by
    simp only [window, hr, List.take_append_of_le_length hb]
  rw [this]
  exact List.sublist_append_left _ _

theorem InvSome.of_le {s s' : State} (h : InvSome s)
    (hg : ∀ k, (s'.subs k).got = (s.subs k).got) (hk : ∀ k, (s'.subs k).kind = (s.subs k).kind)
    (hi : ∀ k, (s'.subs k).id = (s.subs k).id) (hf : ∀ k, (s'.subs k).from_ = (s.subs k).from_)
    (hn : s'.nsub = s.nsub) (hd : s.doneCount ≤ s'.doneCount)
    (hv : ∀ k, visible s k ≤ visible s' k ∧ visible s' k ≤ max (visible s k) s'.received.length)
    (hr : ∃ r, s'.received = s.received ++ r) : InvSome s' := by
  refine ⟨?_, ?_⟩
  · intro k hk'
    rw [hn] at hk'
    have := h.bound k hk'
    have hvk := hv k
    obtain ⟨r, hr⟩ := hr
    rw [hf]
    rw [hr, List.length_append] at hvk
    rw [hr, List.length_append]
    omega
  · intro k hk'
    rw [hn] at hk'
    exact gotSome_of_le (h.got k hk') (hg k) (hk k) (hi k) (hf k) (hv k).1 hr (h.bound k hk').2

theorem InvSome.same {s s' : State} (h : InvSome s) (h1 : s'.subs = s.subs)
    (h2 : s'.nsub = s.nsub) (h3 : s'.phase = s.phase) (h4 : s'.received = s.received) :
    InvSome s' := by
  have hv : ∀ k, visible s' k = visible s k := by
    intro k; simp only [visible, State.seenCount, h1, h3, h4]
  refine h.of_le (by simp [h1]) (by simp [h1]) (by simp [h1]) (by simp [h1]) h2 ?_ ?_ ⟨[], by simp [h4]⟩
  · simp only [State.doneCount, h3, h4]; exact Nat.le_refl _
  · intro k; rw [hv]; exact ⟨Nat.le_refl _, Nat.le_max_left _ _⟩

theorem InvSome.addSub {s : State} (h : InvSome s) (hl : InvLive s) (kd : Kind) (id : Nat) :
    InvSome (s.addSub kd id) := by
  have hv : ∀ k, k ≠ s.nsub → visible (s.addSub kd id) k = visible s k := by
    intro k hk; simp only [visible, State.addSub, upd_ne _ _ hk]; rfl
  have hd : (s.addSub kd id).doneCount = s.doneCount := rfl
  have hnew : visible (s.addSub kd id) s.nsub = s.doneCount := by
    simp only [visible, State.addSub, upd_self, Option.getD_none]
    cases hp : s.phase with
    | idle => simp [State.seenCount, State.doneCount, hp]
    | delivering i d c se =>
      have := (hl.cursor _ _ _ _ hp).1
      simp [State.seenCount, State.doneCount, hp, Nat.not_lt.2 this]
  refine ⟨?_, ?_⟩
  · intro k hk
    by_cases e : k = s.nsub
    · subst e
      rw [hnew, hd]
      simp only [State.addSub, upd_self, Nat.le_refl, true_and]
      exact Nat.le_trans (doneCount_le s 0) (seenCount_le s 0)
    · rw [hv k e, hd]
      simp only [State.addSub, upd_ne _ _ e]
      exact h.bound k (by have : k < s.nsub + 1 := hk; omega)
  · intro k hk
    by_cases e : k = s.nsub
    · subst e
      refine ⟨?_, ?_⟩ <;> simp [State.addSub]
    · have hk' : k < s.nsub := by have : k < s.nsub + 1 := hk; omega
      have e1 : (s.addSub kd id).subs k = s.subs k := by simp only [State.addSub, upd_ne _ _ e]
      exact gotSome_of_le (h.got k hk') (by rw [e1]) (by rw [e1]) (by rw [e1]) (by rw [e1])
        (Nat.le_of_eq (hv k e).symm) ⟨[], by simp [State.addSub]⟩ (h.bound k hk').2

theorem InvSome.unsubscribe {s : State} (h : InvSome s) (k : Nat) : InvSome (s.unsubscribe k) := by
  have hsub : ∀ j, ((s.unsubscribe k).subs j).got = (s.subs j).got ∧
      ((s.unsubscribe k).subs j).kind = (s.subs j).kind ∧
      ((s.unsubscribe k).subs j).id = (s.subs j).id ∧
      ((s.unsubscribe k).subs j).from_ = (s.subs j).from_ := by
    intro j
    rw [State.unsubscribe_subs]
    by_cases e : j = k
    · subst e; simp
    · simp [upd_ne _ _ e]
  refine h.of_le (fun j => (hsub j).1) (fun j => (hsub j).2.1) (fun j => (hsub j).2.2.1)
    (fun j => (hsub j).2.2.2) (by simp) ?_ ?_ ⟨[], by simp⟩
  · simp only [State.doneCount, State.unsubscribe_phase, State.unsubscribe_received]
    exact Nat.le_refl _
  · intro j; rw [visible_unsubscribe]; exact ⟨Nat.le_refl _, Nat.le_max_left _ _⟩

theorem InvSome.finish {s : State} (h : InvSome s) (l : List Nat) : InvSome (s.finish l) := by
  induction l generalizing s with
  | nil => exact h
  | cons k l ih => exact ih (h.unsubscribe k)

theorem InvSome.receive {s : State} (h : InvSome s) (hp : s.phase = .idle) (id : Nat) (d : Json) :
    InvSome (s.receive id d) := by
  have hv : ∀ k, visible (s.receive id d) k = visible s k := by
    intro k; simp [visible, State.receive, State.seenCount, hp]
  refine h.of_le (fun _ => rfl) (fun _ => rfl) (fun _ => rfl) (fun _ => rfl) rfl ?_ ?_ ⟨[_], rfl⟩
  · simp [State.doneCount, hp, State.receive]
  · intro k; rw [hv]; exact ⟨Nat.le_refl _, Nat.le_max_left _ _⟩

/-- A delivery is over, by reaching the end or by an exception. -/
theorem InvSome.toIdle {s : State} (h : InvSome s) : InvSome { s with phase := .idle } := by
  refine h.of_le (fun _ => rfl) (fun _ => rfl) (fun _ => rfl) (fun _ => rfl) rfl ?_ ?_
    ⟨[], by simp⟩
  · simp only [State.doneCount]; split <;> omega
  · intro k
    simp only [visible]
    cases (s.subs k).until_ with
    | some n => simp only [Option.getD_some]; exact ⟨Nat.le_refl _, Nat.le_max_left _ _⟩
    | none =>
      simp only [Option.getD_none]
      exact ⟨seenCount_le s k, Nat.le_max_right _ _⟩

theorem InvSome.visit {s : State} (h : InvSome s) (hl : InvLive s) {id : Nat} {data : Json}
    {cursor : Nat} {settled se' : List Nat} {k : Nat}
    (hp : s.phase = .delivering id data cursor settled) (hn : nextSub s.live cursor = some k) :
    InvSome { (s.call k id data).1 with phase := .delivering id data (k + 1) se' } := by
  obtain ⟨h1, h2, h3, h4, h5⟩ := hl.cursor _ _ _ _ hp
  obtain ⟨n1, n2, n3⟩ := nextSub_some hl.sorted hn
  obtain ⟨pre, hpre⟩ : ∃ pre, s.received = pre ++ [(id, data)] := by
    rw [List.getLast?_eq_some_iff] at h3; exact h3
  have hv : ∀ j, j ≠ k → j < s.nsub →
      visible { (s.call k id data).1 with phase := .delivering id data (k + 1) se' } j =
        visible s j := by
    intro j e hj
    simp only [visible, (call_sub s k id j data).2.2.1]
    cases hu : (s.subs j).until_ with
    | some n => simp
    | none =>
      have hjl : j ∈ s.live := (hl.mem j).2 ⟨hj, hu⟩
      simp only [State.seenCount, hp, State.call_received, Option.getD_none]
      have : j < k + 1 ↔ j < cursor := by
        constructor
        · intro h; exact Nat.lt_of_not_le fun hc => by have := n3 j hjl hc; omega
        · intro h; omega
      simp [this]
  have hvk : visible { (s.call k id data).1 with phase := .delivering id data (k + 1) se' } k =
      s.received.length := by
    simp only [visible, (call_sub s k id k data).2.2.1, ((hl.mem k).1 n1).2, Option.getD_none]
    simp [State.seenCount]
  have hvk0 : visible s k = pre.length := by
    simp only [visible, ((hl.mem k).1 n1).2, Option.getD_none]
    simp [State.seenCount, hp, Nat.not_lt.2 n2, hpre]
  have hdone : s.doneCount = pre.length := by simp [State.doneCount, hp, hpre]
  refine ⟨?_, ?_⟩
  · intro j hj
    simp only [State.call_nsub] at hj
    have hb := h.bound j hj
    by_cases e : j = k
    · subst e
      rw [hvk]
      simp only [(call_sub s j id j data).2.2.2, State.call_received, State.doneCount]
      rw [hdone] at hb
      exact ⟨by simp [hpre, hb.1], Nat.le_refl _⟩
    · rw [hv j e hj]
      simp only [(call_sub s k id j data).2.2.2, State.call_received, State.doneCount]
      rw [hdone] at hb
      exact ⟨by simp [hpre, hb.1], hb.2⟩
  · intro j hj
    simp only [State.call_nsub] at hj
    by_cases e : j = k
    · subst e
      have hb := h.bound j hj
      obtain ⟨hg, hlen⟩ := h.got j hj
      rw [hdone] at hb
      unfold gotSome
      unfold due at hg ⊢
      rw [hvk]
      rw [hvk0, hpre, window_snoc_le (Nat.le_refl _)] at hg
      simp only [(call_sub s j id j data).1, (call_sub s j id j data).2.1,
        (call_sub s j id j data).2.2.2, State.call_received, hpre, List.length_append,
        List.length_singleton, window_snoc hb.1, dataOf_append, (call_got s j id data).1]
      by_cases hid : (s.subs j).id = id
      · have hone : dataOf (s.subs j).id [(id, data)] = [data] := by simp [dataOf, hid]
        rw [hone, if_pos hid]
        cases hk : (s.subs j).kind with
        | callback => exact ⟨hg.append (List.Sublist.refl _), by simp⟩
        | request =>
          simp only
          split
          · exact ⟨List.sublist_append_right _ _, by simp⟩
          · exact ⟨hg.trans (List.sublist_append_left _ _), fun _ => hlen hk⟩
      · have hone : dataOf (s.subs j).id [(id, data)] = [] := by
          simp [dataOf, Ne.symm hid]
        rw [hone, if_neg hid, List.append_nil]
        exact ⟨hg, hlen⟩
    · have e1 : ({ (s.call k id data).1 with
          phase := .delivering id data (k + 1) se' } : State).subs j = s.subs j := by
        simp only [call_subs_other s id data e]
      exact gotSome_of_le (h.got j hj) (by rw [e1]) (by rw [e1]) (by rw [e1]) (by rw [e1])
        (Nat.le_of_eq (hv j e hj).symm) ⟨[], by simp⟩ (h.bound j hj).2

theorem inv_some {s : State} (hr : Reachable s) : InvSome s := by
  refine hr.induct (P := InvSome) ?_ ?_
  · refine ⟨?_, ?_⟩ <;> simp [init]
  intro s l s' hr h hst
  have hlv := inv_live hr
  cases step_Step hst with
  | request ns m a =>
    have h1 : InvLive (s.issue (s.newMsg ns m a)) := by refine InvLive.same hlv ?_ ?_ ?_ ?_ ?_ <;> rfl
    have h2 : InvSome (s.issue (s.newMsg ns m a)) := by refine InvSome.same h ?_ ?_ ?_ ?_ <;> rfl
    refine InvSome.same (h2.addSub h1 .request (s.newMsg ns m a).id) ?_ ?_ ?_ ?_
    all_goals unfold State.request; simp
  | subscribe ns m a =>
    refine h.same ?_ ?_ ?_ ?_ <;> unfold State.subscribe <;> simp <;> rfl
  | attach => exact h.addSub hlv _ _
  | detach k hk hkd => exact h.unsubscribe k
  | opened k hp hk =>
    refine InvSome.same h ?_ ?_ ?_ ?_
    · rw [State.foldl_openAndSend_subs]; rfl
    · rw [State.foldl_openAndSend_nsub]; rfl
    · rw [State.foldl_openAndSend_phase]; rfl
    · rw [State.foldl_openAndSend_received]; rfl
  | failed k => refine h.same ?_ ?_ ?_ ?_ <;> simp <;> rfl
  | clean k => refine h.same ?_ ?_ ?_ ?_ <;> simp <;> rfl
  | closing k => exact h.same rfl rfl rfl rfl
  | method k id data hp => exact h.receive hp id data
  | stream k id data hp => exact h.receive hp id data
  | error => exact h
  | garbage => exact h
  | visitEnd id data cursor settled hp hn => exact h.toIdle.finish settled
  | visit id data cursor settled k hp hn => exact h.visit hlv hp hn
  | visitThrow id data cursor settled k hp hn =>
    refine InvSome.finish (InvSome.same (h.visit hlv (se' := settled) hp hn).toIdle ?_ ?_ ?_ ?_) settled
    all_goals rfl
  | timer => refine h.same ?_ ?_ ?_ ?_ <;> simp

/-! ## Live subscriptions, in terms of the history of calls -/

theorem inv_detached {ls : List Label} {s : State} (h : run init ls = some s) :
    ∀ k, k < s.nsub → (s.subs k).kind = .callback →
      ((s.subs k).until_ = none ↔ Label.detach k ∉ ls) ∧ True := by
  have := run_induct (P := fun ls s => (∀ k, Label.detach k ∈ ls → k < s.nsub) ∧
    ∀ k, k < s.nsub → (s.subs k).kind = .callback →
      ((s.subs k).until_ = none ↔ Label.detach k ∉ ls)) ?_ ?_ h
  · exact fun k hk hkd => ⟨this.2 k hk hkd, trivial⟩
  · refine ⟨?_, ?_⟩ <;> simp [init]
  intro ls l s s' hrun ⟨hb, ih⟩ hst
  have hlv := inv_live ⟨ls, hrun⟩
  have keep : ∀ {t : State}, t.nsub = s.nsub →
      (∀ k, k < s.nsub → (s.subs k).kind = .callback → (t.subs k).until_ = (s.subs k).until_) →
      (∀ k, (t.subs k).kind = (s.subs k).kind) → (∀ k, l ≠ .detach k) →
      ((∀ k, Label.detach k ∈ ls ++ [l] → k < t.nsub) ∧
      ∀ k, k < t.nsub → (t.subs k).kind = .callback →
      ((t.subs k).until_ = none ↔ Label.detach k ∉ ls ++ [l])) := by
    intro t h1 h2 h3 h4
    refine ⟨?_, ?_⟩
    · intro k hk
      rw [h1]
      simp only [List.mem_append, List.mem_singleton] at hk
      rcases hk with hk | hk
      · exact hb k hk
      · exact absurd hk.symm (h4 k)
    · intro k hk hkd
      rw [h1] at hk; rw [h3] at hkd
      rw [h2 k hk hkd, ih k hk hkd]
      simp [Ne.symm (h4 k)]
  have added : ∀ {t : State} {kd : Kind} {id f : Nat}, t.nsub = s.nsub + 1 →
      t.subs = upd s.subs s.nsub { kind := kd, id := id, got := [], from_ := f, until_ := none } →
      (∀ k, l ≠ .detach k) →
      ((∀ k, Label.detach k ∈ ls ++ [l] → k < t.nsub) ∧
      ∀ k, k < t.nsub → (t.subs k).kind = .callback →
      ((t.subs k).until_ = none ↔ Label.detach k ∉ ls ++ [l])) := by
    intro t kd id f h1 h2 h4
    refine ⟨?_, ?_⟩
    · intro k hk
      rw [h1]
      simp only [List.mem_append, List.mem_singleton] at hk
      rcases hk with hk | hk
      · exact Nat.lt_succ_of_lt (hb k hk)
      · exact absurd hk.symm (h4 k)
    · intro k hk hkd
      rw [h1] at hk; rw [h2] at hkd ⊢
      by_cases e : k = s.nsub
      · subst e
        have : Label.detach s.nsub ∉ ls := fun h => Nat.lt_irrefl _ (hb _ h)
        simp [this, Ne.symm (h4 s.nsub)]
      · rw [upd_ne _ _ e] at hkd ⊢
        rw [ih k (by omega) hkd]
        simp [Ne.symm (h4 k)]
  -- requests settled by a delivery
  have fin : ∀ (t : State) (se : List Nat), (∀ k ∈ se, (t.subs k).kind = .request) →
      ∀ k, (t.subs k).kind = .callback → ((t.finish se).subs k).until_ = (t.subs k).until_ := by
    intro t se
    induction se generalizing t with
    | nil => intro _ k _; rfl
    | cons j se ih2 =>
      intro hse k hk
      have e : k ≠ j := by rintro rfl; rw [hse k (by simp)] at hk; cases hk
      simp only [State.finish]
      rw [ih2]
      · rw [State.unsubscribe_subs, upd_ne _ _ e]
      · intro i hi
        rw [State.unsubscribe_subs]
        by_cases e' : i = j
        · subst e'; simpa using hse i (by simp)
        · rw [upd_ne _ _ e']; exact hse i (by simp [hi])
      · rw [State.unsubscribe_subs, upd_ne _ _ e]; exact hk
  cases step_Step hst with
  | request ns m a =>
    refine added (kd := .request) (id := (s.newMsg ns m a).id) (f := s.doneCount) ?_ ?_ (by simp)
    all_goals unfold State.request; simp; rfl
  | subscribe ns m a =>
    have e1 : (s.subscribe (s.newMsg ns m a)).subs = s.subs := by
      unfold State.subscribe; simp; rfl
    refine keep ?_ ?_ ?_ (by simp)
    · unfold State.subscribe; simp; rfl
    · rw [e1]; exact fun _ _ _ => rfl
    · rw [e1]; exact fun _ => rfl
  | attach => exact added rfl rfl (by simp)
  | detach k hk hkd =>
    refine ⟨?_, ?_⟩
    · intro j hj
      simp only [List.mem_append, List.mem_singleton, Label.detach.injEq] at hj
      rw [State.unsubscribe_nsub]
      rcases hj with hj | rfl
      · exact hb j hj
      · exact hk
    · intro j hj hjd
      rw [State.unsubscribe_nsub] at hj
      rw [State.unsubscribe_subs] at hjd ⊢
      by_cases e : j = k
      · subst e; simp
      · rw [upd_ne _ _ e] at hjd ⊢
        rw [ih j hj hjd]; simp [e]
  | opened k hp hk =>
    have e1 := State.foldl_openAndSend_subs (s.socks k).waiting (s.onOpen k)
    refine keep ?_ ?_ ?_ (by simp)
    · rw [State.foldl_openAndSend_nsub]; rfl
    · rw [e1]; exact fun _ _ _ => rfl
    · rw [e1]; exact fun _ => rfl
  | failed k => refine keep ?_ ?_ ?_ ?_ <;> simp [State.onError]
  | clean k => refine keep ?_ ?_ ?_ ?_ <;> simp [State.goneClean]
  | closing k => exact keep rfl (fun _ _ _ => rfl) (fun _ => rfl) (by simp)
  | method k id data hp => exact keep rfl (fun _ _ _ => rfl) (fun _ => rfl) (by simp)
  | stream k id data hp => exact keep rfl (fun _ _ _ => rfl) (fun _ => rfl) (by simp)
  | error => exact keep rfl (fun _ _ _ => rfl) (fun _ => rfl) (by simp)
  | garbage => exact keep rfl (fun _ _ _ => rfl) (fun _ => rfl) (by simp)
  | visitEnd id data cursor settled hp hn =>
    obtain ⟨_, _, _, h4, _⟩ := hlv.cursor _ _ _ _ hp
    refine keep (by simp) ?_ ?_ (by simp)
    · intro j _ hjd
      exact fin { s with phase := .idle } settled (fun i hi => (h4 i hi).2.1) j hjd
    · intro j; exact (finish_got { s with phase := .idle } settled j).2.1
  | visit id data cursor settled k hp hn =>
    refine keep (by simp) ?_ ?_ (by simp)
    · intro j _ _; exact (call_sub s k id j data).2.2.1
    · intro j; exact (call_sub s k id j data).1
  | visitThrow id data cursor settled k hp hn =>
    obtain ⟨_, _, _, h4, _⟩ := hlv.cursor _ _ _ _ hp
    refine keep (by simp) ?_ ?_ (by simp)
    · intro j _ hjd
      rw [fin]
      · exact (call_sub s k id j data).2.2.1
      · intro i hi
        show ((s.call k id data).1.subs i).kind = _
        rw [(call_sub s k id i data).1]; exact (h4 i hi).2.1
      · show ((s.call k id data).1.subs j).kind = _
        rw [(call_sub s k id j data).1]; exact hjd
    · intro j
      rw [(finish_got _ settled j).2.1]
      exact (call_sub s k id j data).1
  | timer => refine keep ?_ ?_ ?_ ?_ <;> simp

end Verif.Client
