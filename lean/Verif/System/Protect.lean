import Verif.System.Answers
import Verif.Client.InvReq

/-!
# The composed system: sockets with pending requests stay open (proof helpers)
-/

namespace Verif.System
open Verif

/-! ## Clients -/

section
open Client

/-- Only new sockets become live. -/
theorem client_live_back {x y : Client.State} {l : Client.Label} (hr : Client.Reachable x)
    (h : Client.step x l = some y) {k : Nat} (hk : k < x.nsock) (hl : (y.socks k).Live) :
    (x.socks k).Live := by
  have hc := inv_conn hr
  have hclose : ∀ (z : Client.State), (z.close.socks k).Live → (z.socks k).Live := by
    intro z hl
    unfold State.close at hl
    split at hl
    · rename_i j _
      by_cases e : k = j
      · subst e
        simp only [upd_self] at hl
        unfold Sock.close at hl
        split at hl
        · simp [Sock.Live] at hl
        · simp [Sock.Live] at hl
        · exact hl
      · simp only [upd_ne _ _ e] at hl; exact hl
    · exact hl
  have hreopen : ∀ (z : Client.State), (z.reopen.socks k).Live → (z.socks k).Live := by
    intro z hl
    refine hclose z ?_
    unfold State.reopen at hl
    simp only at hl
    split at hl <;> exact hl
  have hunsub : ∀ (z : Client.State) j, ((z.unsubscribe j).socks k).Live → (z.socks k).Live := by
    intro z j hl
    unfold State.unsubscribe at hl
    simp only at hl
    split at hl
    · have := hclose _ hl
      exact this
    · exact hl
  have hfinish : ∀ (l : List Nat) (z : Client.State), ((z.finish l).socks k).Live →
      (z.socks k).Live := by
    intro l
    induction l with
    | nil => intro z h; exact h
    | cons j l ih => intro z h; exact hunsub z j (ih _ h)
  have hopen : ∀ (z : Client.State), k < z.nsock → (z.open_.socks k).Live → (z.socks k).Live := by
    intro z hk hl
    unfold State.open_ at hl
    split at hl
    · exact hl
    · simp only [upd_ne _ _ (Nat.ne_of_lt hk)] at hl; exact hl
  have hos : ∀ (z : Client.State) m, k < z.nsock → ((z.openAndSend m).socks k).Live →
      (z.socks k).Live := by
    intro z m hk hl
    unfold State.openAndSend at hl
    split at hl
    · exact hl
    · simp only at hl
      split at hl
      · rename_i j _
        by_cases e : k = j
        · subst e; simp only [upd_self] at hl; exact hopen z hk hl
        · simp only [upd_ne _ _ e] at hl; exact hopen z hk hl
      · exact hopen z hk hl
  have hcall : ∀ j id data, ((x.call j id data).1).socks = x.socks := by
    intro j id data; unfold State.call; split
    · split
      · rfl
      · split <;> rfl
    · rfl
  cases step_Step h with
  | request ns m a => exact hos ((x.issue _).addSub .request _) _ hk hl
  | subscribe ns m a => exact hos { x.issue _ with stores := _ } _ hk hl
  | attach id h => exact hl
  | detach j h hj => exact hunsub _ _ hl
  | opened j hp hj =>
    rw [foldl_openAndSend_ready (onOpen_ready hc hj)] at hl
    have hl : ((x.onOpen j).socks k).Live := hl
    by_cases e : k = j
    · subst e; exact .inl hj
    · simp only [State.onOpen, upd_ne _ _ e] at hl; exact hl
  | failed j hp h =>
    have hl := hreopen _ hl
    by_cases e : k = j
    · subst e; simp [State.onError, Sock.Live] at hl
    · simp only [State.onError, upd_ne _ _ e] at hl; exact hl
  | clean j hp h hw =>
    have hl := hreopen _ hl
    by_cases e : k = j
    · subst e; simp [State.goneClean, Sock.Live] at hl
    · simp only [State.goneClean, upd_ne _ _ e] at hl; exact hl
  | closing j => exact beginClose_live x j k hl
  | method => exact hl
  | stream => exact hl
  | error => exact hl
  | garbage => exact hl
  | visitEnd id data cursor settled hp hn => exact hfinish settled { x with phase := .idle } hl
  | visit id data cursor settled j hp hn =>
    have hl : (((x.call j id data).1).socks k).Live := hl
    rw [hcall] at hl; exact hl
  | visitThrow id data cursor settled j hp hn hid hj =>
    have hl := hfinish settled { (x.call j id data).1 with phase := .idle, threw := true } hl
    have hl : (((x.call j id data).1).socks k).Live := hl
    rw [hcall] at hl; exact hl
  | timer d hp ht => exact hopen _ hk hl

theorem client_nsock {x y : Client.State} {l : Client.Label} (hr : Client.Reachable x)
    (h : Client.step x l = some y) : x.nsock ≤ y.nsock := by
  have hopen : ∀ (z : Client.State), z.nsock ≤ z.open_.nsock := by
    intro z; unfold State.open_; split <;> simp
  have hos : ∀ (z : Client.State) m, z.nsock ≤ (z.openAndSend m).nsock := by
    intro z m
    unfold State.openAndSend
    split
    · exact Nat.le_refl _
    · simp only
      split <;> exact hopen z
  cases step_Step h with
  | request ns m a => exact hos ((x.issue _).addSub .request _) _
  | subscribe ns m a => exact hos { x.issue _ with stores := _ } _
  | opened j hp hj =>
    rw [foldl_openAndSend_ready (onOpen_ready (inv_conn hr) hj)]
    exact Nat.le_refl _
  | timer d hp ht => exact hopen _
  | _ => simp [State.onError, State.goneClean, State.beginClose, State.receive, State.addSub]

/-- Messages of requests whose promise is pending have gone to an open socket. -/
def Protected (x : Client.State) : Prop :=
  ∀ j, j < x.nsub → (x.subs j).kind = .request → (x.subs j).until_ = none →
    ∀ k m, (k, m) ∈ x.sent → m.id = (x.subs j).id → (x.socks k).st = .opened

/-- A deletion that leaves a subscription closes nothing. -/
theorem finish_keeps (l : List Nat) : ∀ (t : Client.State) (j : Nat), j ∈ t.live →
    ((t.finish l).subs j).until_ = none → (t.finish l).socks = t.socks := by
  have hmono : ∀ (l : List Nat) (t : Client.State) j, (t.subs j).until_ ≠ none →
      ((t.finish l).subs j).until_ ≠ none := by
    intro l
    induction l with
    | nil => intro t j h; exact h
    | cons k l ih =>
      intro t j h
      refine ih _ j ?_
      rw [State.unsubscribe_subs]
      by_cases e : j = k
      · subst e; simp
      · rw [upd_ne _ _ e]; exact h
  induction l with
  | nil => intro t j _ _; rfl
  | cons k l ih =>
    intro t j hj hu
    have hne : j ≠ k := by
      rintro rfl
      refine hmono l (t.unsubscribe j) j ?_ hu
      rw [State.unsubscribe_subs]; simp
    have hmem : j ∈ t.live.filter (· != k) := List.mem_filter.2 ⟨hj, by simpa using hne⟩
    have hun : (t.unsubscribe k).live = t.live.filter (· != k) ∧
        (t.unsubscribe k).socks = t.socks := by
      unfold State.unsubscribe
      simp only
      split
      · rename_i h0; rw [h0] at hmem; cases hmem
      · rename_i h0; exact ⟨by simp, rfl⟩
    show ((t.unsubscribe k).finish l).socks = t.socks
    rw [ih (t.unsubscribe k) j (by rw [hun.1]; exact hmem) hu, hun.2]

theorem opened_lt {x : Client.State} (hc : InvConn x) {k : Nat} (h : (x.socks k).st = .opened) :
    k < x.nsock := by
  apply Classical.byContradiction
  intro hn
  rw [hc.fresh k (by omega)] at h
  cases h

theorem protected_step {x y : Client.State} {l : Client.Label} (hr : Client.Reachable x)
    (hP : Protected x) (h : Client.step x l = some y)
    (hcl : ∀ k f, l = .closed k f → x.socket = none) (hcg : ∀ k, l ≠ .closing k)
    (hn : y.calls.length ≤ 2 ^ 53) : Protected y := by
  have hc := inv_conn hr
  have hy := hr.step h
  have hiss := Client.issued_nodup hy (by rw [issued_length hy]; exact hn)
  have hlive := inv_live hr
  have hids := inv_ids hr
  have hopen : ∀ (z : Client.State) k, k < z.nsock → z.open_.socks k = z.socks k := by
    intro z k hk
    unfold State.open_
    split
    · rfl
    · exact upd_ne _ _ (Nat.ne_of_lt hk)
  -- sending a message
  have hos : ∀ (z : Client.State) m, InvConn z → ∀ k, (z.socks k).st = .opened →
      ((z.openAndSend m).socks k).st = .opened := by
    intro z m hz k hk
    have hlt := opened_lt hz hk
    unfold State.openAndSend
    split
    · exact hk
    · simp only
      split
      · rename_i j _
        by_cases e : k = j
        · subst e; simp only [upd_self]; rw [hopen z k hlt]; exact hk
        · simp only [upd_ne _ _ e]; rw [hopen z k hlt]; exact hk
      · rw [hopen z k hlt]; exact hk
  have hsent : ∀ (z : Client.State) m0, InvConn z → ∀ k m, (k, m) ∈ (z.openAndSend m0).sent →
      (k, m) ∈ z.sent ∨ (m = m0 ∧ ((z.openAndSend m0).socks k).st = .opened) := by
    intro z m0 hz k m hm
    cases hrd : z.ready with
    | some j =>
      rw [openAndSend_ready hrd] at hm ⊢
      simp only [List.mem_append, List.mem_singleton] at hm
      rcases hm with hm | hm
      · exact .inl hm
      · cases hm
        refine .inr ⟨rfl, ?_⟩
        unfold State.ready at hrd
        split at hrd
        · split at hrd
          · cases hrd; assumption
          · cases hrd
        · cases hrd
    | none =>
      left
      unfold State.openAndSend at hm
      simp only [hrd] at hm
      split at hm
      · simpa using hm
      · simpa using hm
  -- ids of earlier messages are not the new one
  have hcallid : ∀ k m, (k, m) ∈ x.sent → m.id ∈ x.issued := by
    intro k m hm
    rw [← (inv_id hr).calls]
    exact List.mem_map.2 ⟨m, sent_calls hr hm, rfl⟩
  have hcall : ∀ j id data, ((x.call j id data).1).socks = x.socks := by
    intro j id data; unfold State.call; split
    · split
      · rfl
      · split <;> rfl
    · rfl
  cases step_Step h with
  | request ns m a =>
    have hz : InvConn ((x.issue (x.newMsg ns m a)).addSub .request (x.newMsg ns m a).id) := by
      refine InvConn.same hc ?_ ?_ ?_ ?_ ?_ <;> rfl
    have hnew : ∀ i ∈ x.issued, i < (x.newMsg ns m a).id := by
      have : (x.request (x.newMsg ns m a)).issued = x.issued ++ [(x.newMsg ns m a).id] := by
        unfold State.request; simp [State.issue]
      rw [this] at hiss
      exact (snoc_lt hiss).2
    intro j hj hkind hu k m' hm' hid
    unfold State.request at hj hkind hu hm' hid ⊢
    simp only [State.openAndSend_nsub, State.openAndSend_subs] at hj hkind hu hid
    rcases hsent _ _ hz k m' hm' with hold | ⟨rfl, hop⟩
    · have hold : (k, m') ∈ x.sent := hold
      refine hos _ _ hz k ?_
      by_cases e : j = x.nsub
      · subst e
        have : m'.id = (x.newMsg ns m a).id := by
          simpa [State.addSub, State.issue] using hid
        have := hnew _ (hcallid k m' hold)
        omega
      · have hj' : j < x.nsub := by
          have : j < x.nsub + 1 := hj
          omega
        simp only [State.addSub, State.issue, upd_ne _ _ e] at hkind hu hid
        exact hP j hj' hkind hu k m' hold hid
    · exact hop
  | subscribe ns m a =>
    have hz : InvConn { x.issue (x.newMsg ns m a) with
        stores := x.stores ++ [(x.newMsg ns m a).id] } := by
      refine InvConn.same hc ?_ ?_ ?_ ?_ ?_ <;> rfl
    intro j hj hkind hu k m' hm' hid
    unfold State.subscribe at hj hkind hu hm' hid ⊢
    simp only [State.openAndSend_nsub, State.openAndSend_subs] at hj hkind hu hid
    rcases hsent _ _ hz k m' hm' with hold | ⟨rfl, hop⟩
    · exact hos _ _ hz k (hP j hj hkind hu k m' hold hid)
    · exact hop
  | attach id h =>
    intro j hj hkind hu k m' hm' hid
    have hj' : j < x.nsub + 1 := hj
    by_cases e : j = x.nsub
    · subst e; simp [State.addSub] at hkind
    · simp only [State.addSub, upd_ne _ _ e] at hkind hu hid
      exact hP j (by omega) hkind hu k m' hm' hid
  | detach j0 hj0 hk0 =>
    intro j hj hkind hu k m' hm' hid
    have hj' : j < x.nsub := by simpa using hj
    rw [State.unsubscribe_subs] at hkind hu hid
    have e : j ≠ j0 := by
      rintro rfl
      simp at hu
    rw [upd_ne _ _ e] at hkind hu hid
    have hm2 : (k, m') ∈ x.sent := by simpa using hm'
    have hmem : j ∈ x.live.filter (· != j0) :=
      List.mem_filter.2 ⟨(hlive.mem j).2 ⟨hj', hu⟩, by simpa using e⟩
    have : (x.unsubscribe j0).socks = x.socks := by
      unfold State.unsubscribe
      simp only
      split
      · rename_i h0; rw [h0] at hmem; cases hmem
      · rfl
    rw [this]
    exact hP j hj' hkind hu k m' hm2 hid
  | opened k0 hp hk0 =>
    rw [foldl_openAndSend_ready (onOpen_ready hc hk0)]
    intro j hj hkind hu k m' hm' hid
    show ((x.onOpen k0).socks k).st = .opened
    by_cases e : k = k0
    · subst e; simp [State.onOpen]
    · simp only [List.mem_append, List.mem_map] at hm'
      rcases hm' with hm' | ⟨_, _, hm'⟩
      · simp only [State.onOpen, upd_ne _ _ e]
        exact hP j hj hkind hu k m' hm' hid
      · cases hm'; exact absurd rfl e
  | failed k0 hp h0 =>
    have hs := hcl k0 true rfl
    intro j hj hkind hu k m' hm' hid
    have := hP j (by simpa [State.onError] using hj) (by simpa [State.onError] using hkind)
      (by simpa [State.onError] using hu) k m' (by simpa [State.onError] using hm')
      (by simpa [State.onError] using hid)
    have := (hc.live k).1 (.inr this)
    rw [hs] at this; cases this
  | clean k0 hp h0 hw =>
    have hs := hcl k0 false rfl
    intro j hj hkind hu k m' hm' hid
    have := hP j (by simpa [State.goneClean] using hj) (by simpa [State.goneClean] using hkind)
      (by simpa [State.goneClean] using hu) k m' (by simpa [State.goneClean] using hm')
      (by simpa [State.goneClean] using hid)
    have := (hc.live k).1 (.inr this)
    rw [hs] at this; cases this
  | closing k => exact absurd rfl (hcg k)
  | method => exact hP
  | stream => exact hP
  | error => exact hP
  | garbage => exact hP
  | visitEnd id data cursor settled hp hnx =>
    intro j hj hkind hu k m' hm' hid
    have hj' : j < x.nsub := by simpa using hj
    obtain ⟨_, f1, f2, _⟩ := finish_got { x with phase := .idle } settled j
    have hu0 : (x.subs j).until_ = none := by
      apply Classical.byContradiction
      intro hne
      have : ∀ (l : List Nat) (t : Client.State), (t.subs j).until_ ≠ none →
          ((t.finish l).subs j).until_ ≠ none := by
        intro l
        induction l with
        | nil => intro t h; exact h
        | cons k l ih =>
          intro t h
          refine ih _ ?_
          rw [State.unsubscribe_subs]
          by_cases e : j = k
          · subst e; simp
          · rw [upd_ne _ _ e]; exact h
      exact this settled { x with phase := .idle } hne hu
    rw [finish_keeps settled { x with phase := .idle } j ((hlive.mem j).2 ⟨hj', hu0⟩) hu]
    exact hP j hj' (f1 ▸ hkind) hu0 k m' (by simpa using hm') (f2 ▸ hid)
  | visit id data cursor settled j0 hp hnx =>
    intro j hj hkind hu k m' hm' hid
    obtain ⟨c1, c2, c3, _⟩ := call_sub x j0 id j data
    show (((x.call j0 id data).1).socks k).st = .opened
    rw [hcall]
    exact hP j (by simpa using hj) (c1 ▸ hkind) (c3 ▸ hu) k m' (by simpa using hm') (c2 ▸ hid)
  | visitThrow id data cursor settled j0 hp hnx hid0 hk0 =>
    intro j hj hkind hu k m' hm' hid
    have hj' : j < x.nsub := by simpa using hj
    obtain ⟨_, f1, f2, _⟩ :=
      finish_got { (x.call j0 id data).1 with phase := .idle, threw := true } settled j
    obtain ⟨c1, c2, c3, _⟩ := call_sub x j0 id j data
    have hu0 : (x.subs j).until_ = none := by
      apply Classical.byContradiction
      intro hne
      have : ∀ (l : List Nat) (t : Client.State), (t.subs j).until_ ≠ none →
          ((t.finish l).subs j).until_ ≠ none := by
        intro l
        induction l with
        | nil => intro t h; exact h
        | cons k l ih =>
          intro t h
          refine ih _ ?_
          rw [State.unsubscribe_subs]
          by_cases e : j = k
          · subst e; simp
          · rw [upd_ne _ _ e]; exact h
      refine this settled { (x.call j0 id data).1 with phase := .idle, threw := true } ?_ hu
      show ((x.call j0 id data).1.subs j).until_ ≠ none
      rw [c3]; exact hne
    have hl : j ∈ ({ (x.call j0 id data).1 with phase := .idle, threw := true } :
        Client.State).live := by
      have := (hlive.mem j).2 ⟨hj', hu0⟩
      simpa using this
    rw [finish_keeps settled _ j hl hu]
    show (((x.call j0 id data).1).socks k).st = .opened
    rw [hcall]
    exact hP j hj' (by rw [← c1]; exact f1 ▸ hkind) hu0 k m' (by simpa using hm')
      (by rw [← c2]; exact f2 ▸ hid)
  | timer d hp ht =>
    intro j hj hkind hu k m' hm' hid
    have := hP j (by simpa using hj) (by simpa using hkind) (by simpa using hu) k m'
      (by simpa using hm') (by simpa using hid)
    rw [hopen x k (opened_lt hc this)]; exact this

/-- The socket in use stays usable as long as its closing is not begun by others. -/
theorem socket_live_step {x y : Client.State} {l : Client.Label} (hr : Client.Reachable x)
    (hP : ∀ k, x.socket = some k → (x.socks k).Live) (h : Client.step x l = some y)
    (hcg : ∀ k, l ≠ .closing k) : ∀ k, y.socket = some k → (y.socks k).Live := by
  let P : Client.State → Prop := fun z => ∀ k, z.socket = some k → (z.socks k).Live
  have hclose : ∀ z : Client.State, P z.close := by
    intro z k hk; rw [Client.close_socket] at hk; cases hk
  have hreopen : ∀ z : Client.State, P z.reopen := by
    intro z
    unfold State.reopen
    simp only
    split
    · exact hclose z
    · intro k hk
      have hk : z.close.socket = some k := hk
      rw [Client.close_socket] at hk; cases hk
  have hunsub : ∀ (z : Client.State) j, P z → P (z.unsubscribe j) := by
    intro z j hz
    unfold State.unsubscribe
    simp only
    split
    · exact hclose _
    · exact hz
  have hfinish : ∀ (l : List Nat) (z : Client.State), P z → P (z.finish l) := by
    intro l
    induction l with
    | nil => intro z h; exact h
    | cons j l ih => intro z h; exact ih _ (hunsub z j h)
  have hopen : ∀ z : Client.State, P z → P z.open_ := by
    intro z hz
    unfold State.open_
    split
    · exact hz
    · intro k hk
      cases hk
      left; simp
  have hos : ∀ (z : Client.State) m, P z → P (z.openAndSend m) := by
    intro z m hz
    unfold State.openAndSend
    split
    · exact hz
    · simp only
      split
      · rename_i j _
        intro k hk
        have := hopen z hz k hk
        by_cases e : k = j
        · subst e; simpa [Sock.Live] using this
        · simpa [upd_ne _ _ e] using this
      · exact hopen z hz
  have hcall : ∀ j id data, P (x.call j id data).1 := by
    intro j id data
    unfold State.call
    split
    · split
      · exact hP
      · split <;> exact hP
    · exact hP
  cases step_Step h with
  | request ns m a => exact hos ((x.issue _).addSub .request _) _ hP
  | subscribe ns m a => exact hos { x.issue _ with stores := _ } _ hP
  | attach id h => exact hP
  | detach j h hj => exact hunsub _ _ hP
  | opened j hp hj =>
    rw [foldl_openAndSend_ready (onOpen_ready (inv_conn hr) hj)]
    intro k hk
    show ((x.onOpen j).socks k).Live
    by_cases e : k = j
    · subst e; right; simp [State.onOpen]
    · simp only [State.onOpen, upd_ne _ _ e]; exact hP k hk
  | failed j hp h => exact hreopen _
  | clean j hp h hw => exact hreopen _
  | closing k => exact absurd rfl (hcg k)
  | method => exact hP
  | stream => exact hP
  | error => exact hP
  | garbage => exact hP
  | visitEnd id data cursor settled hp hn => exact hfinish settled { x with phase := .idle } hP
  | visit id data cursor settled j hp hn => exact hcall j id data
  | visitThrow id data cursor settled j hp hn hid hj =>
    exact hfinish settled { (x.call j id data).1 with phase := .idle, threw := true }
      (hcall j id data)
  | timer d hp ht => exact hopen _ hP

end

end Verif.System
