import Verif.System.Model
import Verif.Rpc.ServerInv3
import Verif.Client.History
import Verif.Props.Wire

/-!
# The composed system: steps and projections (proof helpers)
-/

namespace Verif.System
open Verif

variable {σ C : Type}

/-- The steps of the system, by what they change. -/
inductive Move (sv : Service σ C) (s : State σ C) : State σ C → Prop
  | client (i l x) (h : Client.step (s.clients i) l = some x) (hl : ∀ k m, l ≠ .message k m) :
      Move sv s (s.setClient i x)
  | server (l x) (h : Server.step sv s.server l = some x) (hc : l ≠ .connect)
      (hf : ∀ c f, l = .frame c f → s.owner c = none) : Move sv s { s with server := x }
  | foreign (x) (h : Server.step sv s.server .connect = some x) : Move sv s { s with server := x }
  | accept (i k x) (h : Server.step sv s.server .connect = some x)
      (hk : ((s.clients i).socks k).st ≠ .closed) (hw : ((s.clients i).socks k).wasOpen = false)
      (hu : ∀ c, c < s.server.nconn → s.owner c ≠ some (i, k)) :
      Move sv s { s with
        server := x
        owner := fun c => if c = s.server.nconn then some (i, k) else s.owner c }
  | deliver (c i k m x) (ho : s.owner c = some (i, k))
      (hm : (sentOn (s.clients i) k)[s.up c]? = some m)
      (h : Server.step sv s.server (.frame c (frameOf m)) = some x) :
      Move sv s { s with
        server := x
        up := fun c' => if c' = c then s.up c + 1 else s.up c' }
  | respond (c i k r x) (ho : s.owner c = some (i, k))
      (hm : (s.server.conns c).written[s.down c]? = some r)
      (h : Client.step (s.clients i) (.message k (incoming r)) = some x) :
      Move sv s { s.setClient i x with
        down := fun c' => if c' = c then s.down c + 1 else s.down c' }

theorem map_some {α β : Type} {o : Option α} {f : α → β} {y : β} (h : o.map f = some y) :
    ∃ x, o = some x ∧ y = f x := by
  cases o with
  | none => cases h
  | some x => exact ⟨x, rfl, (Option.some.inj h).symm⟩

theorem step_Move {sv : Service σ C} {s s' : State σ C} {l : Label}
    (h : step sv s l = some s') : Move sv s s' := by
  have hserver : ∀ {l}, l ≠ Server.Label.connect → (∀ c f, l = .frame c f → s.owner c = none) →
      s.serverStep sv l = some s' → Move sv s s' := by
    intro l h1 h2 h
    obtain ⟨x, hx, rfl⟩ := map_some h
    exact .server l x hx h1 h2
  have hclient : ∀ {i l}, (∀ k m, l ≠ Client.Label.message k m) →
      s.clientStep i l = some s' → Move sv s s' := by
    intro i l h1 h
    obtain ⟨x, hx, rfl⟩ := map_some h
    exact .client i l x hx h1
  cases l with
  | client i l =>
    simp only [step] at h
    split at h
    · rename_i hl
      exact hclient (by rintro k m rfl; simp [isLocal] at hl) h
    · cases h
  | server l =>
    simp only [step] at h
    split at h
    · rename_i hl
      exact hserver (by rintro rfl; simp [isInternal] at hl)
        (by rintro c f rfl; simp [isInternal] at hl) h
    · cases h
  | accept i k =>
    simp only [step] at h
    split at h
    · rename_i hl
      split at h
      · rename_i x hx
        cases h
        refine .accept i k x hx hl.1 hl.2.1 ?_
        intro c hc e
        have := List.all_eq_true.1 hl.2.2 c (List.mem_range.2 hc)
        simp [e] at this
      · cases h
    · cases h
  | opened c =>
    simp only [step] at h
    split at h
    · exact hclient (by rintro k m ⟨⟩) h
    · cases h
  | deliver c =>
    simp only [step] at h
    split at h
    · rename_i i k ho
      split at h
      · rename_i m hm
        split at h
        · rename_i x hx
          cases h
          exact .deliver c i k m x ho hm hx
        · cases h
      · cases h
    · cases h
  | respond c =>
    simp only [step] at h
    split at h
    · rename_i i k ho
      split at h
      · rename_i m hm
        split at h
        · rename_i x hx
          cases h
          exact .respond c i k m x ho hm hx
        · cases h
      · cases h
    · cases h
  | endUp c =>
    simp only [step] at h
    split at h
    · split at h
      · exact hserver (by simp) (by rintro c f ⟨⟩) h
      · cases h
    · cases h
  | beginDown i k =>
    simp only [step] at h
    split at h
    · exact hclient (by rintro k m ⟨⟩) h
    · cases h
  | endDown i k =>
    simp only [step] at h
    split at h
    · exact hclient (by rintro k m ⟨⟩) h
    · cases h
  | foreignConnect =>
    obtain ⟨x, hx, rfl⟩ := map_some h
    exact .foreign x hx
  | foreignFrame c f =>
    simp only [step] at h
    split at h
    · cases h
    · rename_i ho
      exact hserver (by simp) (by rintro c' f' e; cases e; exact ho) h
  | foreignEnd c =>
    simp only [step] at h
    split at h
    · cases h
    · exact hserver (by simp) (by rintro c f ⟨⟩) h
  | failUp c => exact hserver (by simp) (by rintro c f ⟨⟩) h
  | failWrite c => exact hserver (by simp) (by rintro c f ⟨⟩) h
  | failBegin i k => exact hclient (by rintro k m ⟨⟩) h
  | failDown i k f => exact hclient (by rintro k m ⟨⟩) h

theorem setClient_self (s : State σ C) (i : Nat) (x : Client.State) :
    (s.setClient i x).clients i = x := by simp [State.setClient]
theorem setClient_ne (s : State σ C) {i j : Nat} (x : Client.State) (h : j ≠ i) :
    (s.setClient i x).clients j = s.clients j := by simp [State.setClient, h]

/-- The server of a reachable system is in a reachable state. -/
theorem Reachable.server {sv : Service σ C} {b : σ} {s : State σ C} (h : Reachable sv b s) :
    Server.Reachable sv b s.server := by
  refine h.induct (P := fun s => Server.Reachable sv b s.server) ⟨[], rfl⟩ ?_
  intro s l s' _ ih hst
  cases step_Move hst with
  | client i l x h hl => exact ih
  | server l x h => exact ih.step h
  | foreign x h => exact ih.step h
  | accept i k x h => exact ih.step h
  | deliver c i k m x ho hm h => exact ih.step h
  | respond => exact ih

/-- Each client of a reachable system is in a reachable state. -/
theorem Reachable.client {sv : Service σ C} {b : σ} {s : State σ C} (h : Reachable sv b s)
    (i : Nat) : Client.Reachable (s.clients i) := by
  refine h.induct (P := fun s => Client.Reachable (s.clients i)) ⟨[], rfl⟩ ?_
  intro s l s' _ ih hst
  have hset : ∀ j l x, Client.step (s.clients j) l = some x →
      Client.Reachable ((s.setClient j x).clients i) := by
    intro j l x h
    by_cases e : i = j
    · subst e; rw [setClient_self]; exact ih.step h
    · rw [setClient_ne _ _ e]; exact ih
  cases step_Move hst with
  | client j l x h hl => exact hset j l x h
  | server l x h => exact ih
  | foreign x h => exact ih
  | accept => exact ih
  | deliver => exact ih
  | respond c j k r x ho hm h => exact hset j _ x h

/-! ## Server steps -/

theorem server_nconn {sv : Service σ C} {x y : Server.State σ C} {l : Server.Label}
    (h : Server.step sv x l = some y) :
    (l = .connect → y.nconn = x.nconn + 1) ∧ (l ≠ .connect → y.nconn = x.nconn) := by
  cases Server.step_Step h <;> first
    | exact ⟨by simp, fun _ => rfl⟩
    | exact ⟨fun _ => rfl, by simp⟩

theorem server_written {sv : Service σ C} {b : σ} {x y : Server.State σ C} {l : Server.Label}
    (hr : Server.Reachable sv b x) (h : Server.step sv x l = some y) (c : Nat) :
    (x.conns c).written <+: (y.conns c).written := by
  have hset : ∀ c0 z, (x.conns c0).written <+: z.written →
      (x.conns c).written <+: (Server.upd x.conns c0 z c).written := by
    intro c0 z hz
    by_cases e : c = c0
    · subst e; rw [Server.upd_self]; exact hz
    · rw [Server.upd_ne _ _ e]; exact List.prefix_refl _
  have hsend : ∀ c0 f r, (x.conns c0).written <+: ((x.conns c0).send f r).1.written := by
    intro c0 f r
    unfold Server.Conn.send
    split <;> exact List.prefix_refl _
  cases Server.step_Step h <;> first
    | exact List.prefix_refl _
    | exact hset _ _ (hsend _ _ _)
    | exact hset _ _ (List.prefix_refl _)
    | exact hset _ _ (List.prefix_append _ _)
    | skip
  · refine hset _ _ ?_
    rw [(Server.inv_fresh hr).2.1 _ (Nat.le_refl _)]
    exact List.prefix_refl _

theorem prefix_take {α : Type} {l l' : List α} {n : Nat} (h : l <+: l') (hn : n ≤ l.length) :
    l'.take n = l.take n := by
  obtain ⟨r, rfl⟩ := h
  rw [List.take_append_of_le_length hn]

/-! ## Client steps -/

/-- What a client step transmits is added at the end. -/
theorem client_sent {x y : Client.State} {l : Client.Label} (hr : Client.Reachable x)
    (h : Client.step x l = some y) : x.sent <+: y.sent := by
  have hos : ∀ (z : Client.State) m, z.sent <+: (z.openAndSend m).sent := by
    intro z m
    unfold Client.State.openAndSend
    split
    · exact List.prefix_append _ _
    · simp only
      split <;> simp
  cases Client.step_Step h with
  | request ns m a =>
    unfold Client.State.request
    exact List.IsPrefix.trans (by simp [Client.State.issue]) (hos _ _)
  | subscribe ns m a =>
    unfold Client.State.subscribe
    exact List.IsPrefix.trans (by simp [Client.State.issue]) (hos _ _)
  | opened k hp hk =>
    rw [Client.foldl_openAndSend_ready (Client.onOpen_ready (Client.inv_conn hr) hk)]
    exact List.prefix_append _ _
  | _ => simp [Client.State.onError, Client.State.goneClean, Client.State.beginClose, Client.State.receive]

theorem sentOn_prefix {x y : Client.State} (h : x.sent <+: y.sent) (k : Nat) :
    sentOn x k <+: sentOn y k := by
  obtain ⟨r, h⟩ := h
  exact ⟨(r.filter (fun p => p.1 == k)).map (·.2), by simp [sentOn, ← h]⟩

theorem client_calls {x y : Client.State} {l : Client.Label}
    (h : Client.step x l = some y) : x.calls <+: y.calls := by
  cases Client.step_Step h with
  | request ns m a =>
    unfold Client.State.request
    simp [Client.State.issue]
  | subscribe ns m a =>
    unfold Client.State.subscribe
    simp [Client.State.issue]
  | opened k hp hk => rw [Client.State.foldl_openAndSend_calls]; exact List.prefix_refl _
  | _ => simp [Client.State.onError, Client.State.goneClean, Client.State.beginClose, Client.State.receive]

/-- Only message events add to the received messages. -/
theorem client_received {x y : Client.State} {l : Client.Label}
    (h : Client.step x l = some y) (hl : ∀ k m, l ≠ .message k m) : y.received = x.received := by
  cases Client.step_Step h with
  | request ns m a =>
    unfold Client.State.request
    simp [Client.State.issue]
  | subscribe ns m a =>
    unfold Client.State.subscribe
    simp [Client.State.issue]
  | opened k hp hk => rw [Client.State.foldl_openAndSend_received]; rfl
  | method k => exact absurd rfl (hl k _)
  | stream k => exact absurd rfl (hl k _)
  | error k => exact absurd rfl (hl k _)
  | garbage k => exact absurd rfl (hl k _)
  | _ => simp [Client.State.onError, Client.State.goneClean, Client.State.beginClose]

/-- The data a response carries for the client: id and data. -/
def payload : Response → Option (Nat × Json)
  | .method id d => some (id, d)
  | .stream id d => some (id, d)
  | .error _ _ => none

theorem client_message {x y : Client.State} {k : Nat} {r : Response}
    (h : Client.step x (.message k (incoming r)) = some y) :
    y.received = x.received ++ (payload r).toList ∧ y.sent = x.sent ∧ y.calls = x.calls := by
  cases r <;> simp only [incoming] at h <;> cases Client.step_Step h <;>
    simp [Client.State.receive, payload]

end Verif.System
