import Verif.System.Protect

/-!
# The composed system: histories without failures (proof helpers)
-/

namespace Verif.System
open Verif Verif.ServerSpec Verif.SystemSpec

variable {σ C : Type}

/-- Close events reach only clients without a socket, and no socket in use is closed. -/
def Still (s : State σ C) (l : Label) : Prop :=
  (∀ i k, l = .endDown i k → (s.clients i).socket = none) ∧ ∀ i k, l ≠ .beginDown i k

/-- `Calm`, and all steps are still. -/
def CalmS (sv : Service σ C) : State σ C → List Label → Prop
  | _, [] => True
  | s, l :: ls => l.isFailure = false ∧
      Still s l ∧ ∀ s', step sv s l = some s' → CalmS sv s' ls

theorem Calm_append {sv : Service σ C} {s s' : State σ C} {l₁ l₂ : List Label}
    (h : Calm sv s (l₁ ++ l₂)) (hr : run sv s l₁ = some s') : Calm sv s l₁ ∧ Calm sv s' l₂ := by
  induction l₁ generalizing s with
  | nil => simp only [run, Option.some.injEq] at hr; subst hr; exact ⟨trivial, h⟩
  | cons l ls ih =>
    simp only [run] at hr
    cases h1 : step sv s l with
    | none => rw [h1] at hr; cases hr
    | some s1 =>
      rw [h1] at hr
      obtain ⟨a, b, c⟩ := h
      obtain ⟨d, e⟩ := ih (c s1 h1) hr
      refine ⟨⟨a, b, fun s2 h2 => ?_⟩, e⟩
      rw [h1] at h2; cases h2; exact d

theorem CalmS_snoc {sv : Service σ C} {l : Label} (hf : l.isFailure = false) :
    ∀ (ls : List Label) (s s' : State σ C), CalmS sv s ls → run sv s ls = some s' →
    Still s' l → CalmS sv s (ls ++ [l]) := by
  intro ls
  induction ls with
  | nil =>
    intro s s' _ hr he
    simp only [run, Option.some.injEq] at hr
    subst hr
    exact ⟨hf, he, fun _ _ => trivial⟩
  | cons l' ls ih =>
    intro s s' h hr he
    refine ⟨h.1, h.2.1, fun s1 hs => ih s1 s' (h.2.2 s1 hs) ?_ he⟩
    simp only [run, hs] at hr
    exact hr

theorem CalmS_append {sv : Service σ C} {s s' : State σ C} {l₁ l₂ : List Label}
    (h : CalmS sv s (l₁ ++ l₂)) (hr : run sv s l₁ = some s') : CalmS sv s l₁ ∧ CalmS sv s' l₂ := by
  induction l₁ generalizing s with
  | nil => simp only [run, Option.some.injEq] at hr; subst hr; exact ⟨trivial, h⟩
  | cons l ls ih =>
    simp only [run] at hr
    cases h1 : step sv s l with
    | none => rw [h1] at hr; cases hr
    | some s1 =>
      rw [h1] at hr
      obtain ⟨a, b, c⟩ := h
      obtain ⟨d, e⟩ := ih (c s1 h1) hr
      refine ⟨⟨a, b, fun s2 h2 => ?_⟩, e⟩
      rw [h1] at h2; cases h2; exact d

/-- Induction over calm histories; `Q` is a property of labels. -/
theorem calm_induct {sv : Service σ C} {b : σ} {Q : Label → Prop} {P : State σ C → Prop}
    (h0 : P (init b))
    (hs : ∀ s l s', Reachable sv b s → P s → step sv s l = some s' → l.isFailure = false →
      Still s l → Q l → P s')
    {ls : List Label} {s : State σ C} (h : run sv (init b) ls = some s) (hc : CalmS sv (init b) ls)
    (hq : ∀ l ∈ ls, Q l) : P s := by
  have key : ∀ (ls : List Label) (s₀ : State σ C), Reachable sv b s₀ → P s₀ → CalmS sv s₀ ls →
      (∀ l ∈ ls, Q l) → ∀ s, run sv s₀ ls = some s → P s := by
    intro ls
    induction ls with
    | nil => intro s₀ _ hp _ _ s he; simp only [run, Option.some.injEq] at he; exact he ▸ hp
    | cons l ls ih =>
      intro s₀ hr hp hc hq s he
      simp only [run] at he
      cases hst : step sv s₀ l with
      | none => simp [hst] at he
      | some s₁ =>
        simp only [hst] at he
        obtain ⟨a, b', c⟩ := hc
        exact ih s₁ (hr.step hst) (hs _ _ _ hr hp hst a b' (hq l (by simp))) (c s₁ hst)
          (fun l' hl => hq l' (by simp [hl])) s he
  exact key ls (init b) ⟨[], rfl⟩ h0 hc hq s h

/-- The steps of a calm history. -/
inductive CMove (sv : Service σ C) (s : State σ C) : Label → State σ C → Prop
  | client (L i l x) (h : Client.step (s.clients i) l = some x)
      (hc : ∀ k f, l = .closed k f → (s.clients i).socket = none) (hg : ∀ k, l ≠ .closing k)
      (hu : (∃ l', L = .client i l' ∧ l = l') ∨ ∀ ns m a, l ≠ .subscribe ns m a)  :
      CMove sv s L (s.setClient i x)
  | server (L l x) (h : Server.step sv s.server l = some x) (hc : l ≠ .connect)
      (hL : L = .server l ∨ ((∀ c, l = .recvEnd c → ∀ i k, s.owner c = some (i, k) →
        ¬ ((s.clients i).socks k).Live) ∧ ((∃ c, l = .recvEnd c) ∨ ∃ c f, l = .frame c f)))
      (hi : L = .server l → isInternal l = true) :
      CMove sv s L { s with server := x }
  | foreign (x) (h : Server.step sv s.server .connect = some x) :
      CMove sv s .foreignConnect { s with server := x }
  | accept (i k x) (h : Server.step sv s.server .connect = some x)
      (hk : ((s.clients i).socks k).st ≠ .closed) (hw : ((s.clients i).socks k).wasOpen = false)
      (hu : ∀ c, c < s.server.nconn → s.owner c ≠ some (i, k)) :
      CMove sv s (.accept i k) { s with
        server := x
        owner := fun c => if c = s.server.nconn then some (i, k) else s.owner c }
  | deliver (c i k m x) (ho : s.owner c = some (i, k))
      (hm : (sentOn (s.clients i) k)[s.up c]? = some m)
      (h : Server.step sv s.server (.frame c (frameOf m)) = some x) :
      CMove sv s (.deliver c) { s with
        server := x
        up := fun c' => if c' = c then s.up c + 1 else s.up c' }
  | respond (c i k r x) (ho : s.owner c = some (i, k))
      (hm : (s.server.conns c).written[s.down c]? = some r)
      (h : Client.step (s.clients i) (.message k (incoming r)) = some x) :
      CMove sv s (.respond c) { s.setClient i x with
        down := fun c' => if c' = c then s.down c + 1 else s.down c' }

theorem step_CMove {sv : Service σ C} {s s' : State σ C} {l : Label}
    (h : step sv s l = some s') (hf : l.isFailure = false)
    (hc : Still s l) : CMove sv s l s' := by
  cases l with
  | client i l =>
    simp only [step] at h
    split at h
    · rename_i hl
      obtain ⟨x, hx, rfl⟩ := map_some h
      exact .client _ i l x hx (by rintro k f rfl; simp [isLocal] at hl)
        (by rintro k rfl; simp [isLocal] at hl) (.inl ⟨l, rfl, rfl⟩)
    · cases h
  | server l =>
    simp only [step] at h
    split at h
    · rename_i hl
      obtain ⟨x, hx, rfl⟩ := map_some h
      exact .server _ l x hx (by rintro rfl; simp [isInternal] at hl) (.inl rfl) (fun _ => hl)
    · cases h
  | accept i k =>
    simp only [step] at h
    split at h
    · rename_i hl
      split at h
      · rename_i x hx
        cases h
        refine .accept i k x hx hl.1 hl.2.1 ?_
        intro c hc e
        have := List.all_eq_true.1 hl.2.2 c (List.mem_range.2 hc)
        simp [e] at this
      · cases h
    · cases h
  | opened c =>
    simp only [step] at h
    split at h
    · obtain ⟨x, hx, rfl⟩ := map_some h
      exact .client _ _ _ x hx (by rintro k f ⟨⟩) (by rintro k ⟨⟩) (.inr (by rintro _ _ _ ⟨⟩))
    · cases h
  | deliver c =>
    simp only [step] at h
    split at h
    · rename_i i k ho
      split at h
      · rename_i m hm
        split at h
        · rename_i x hx
          cases h
          exact .deliver c i k m x ho hm hx
        · cases h
      · cases h
    · cases h
  | respond c =>
    simp only [step] at h
    split at h
    · rename_i i k ho
      split at h
      · rename_i m hm
        split at h
        · rename_i x hx
          cases h
          exact .respond c i k m x ho hm hx
        · cases h
      · cases h
    · cases h
  | endUp c =>
    simp only [step] at h
    split at h
    · rename_i i k ho
      split at h
      · rename_i hst
        obtain ⟨x, hx, rfl⟩ := map_some h
        refine .server _ _ x hx (by simp) (.inr ⟨?_, .inl ⟨c, rfl⟩⟩) (by simp)
        rintro c' e i' k' ho'
        cases e
        rw [ho] at ho'; cases ho'
        unfold Client.Sock.Live
        rcases hst with hst | hst <;> simp [hst]
      · cases h
    · cases h
  | endDown i k =>
    simp only [step] at h
    split at h
    · obtain ⟨x, hx, rfl⟩ := map_some h
      exact .client _ _ _ x hx (fun _ _ _ => hc.1 i k rfl) (by rintro k ⟨⟩) (.inr (by rintro _ _ _ ⟨⟩))
    · cases h
  | foreignConnect =>
    obtain ⟨x, hx, rfl⟩ := map_some h
    exact .foreign x hx
  | foreignFrame c f =>
    simp only [step] at h
    split at h
    · cases h
    · rename_i ho
      obtain ⟨x, hx, rfl⟩ := map_some h
      exact .server _ _ x hx (by simp) (.inr ⟨by rintro _ ⟨⟩, .inr ⟨c, f, rfl⟩⟩) (by simp)
  | foreignEnd c =>
    simp only [step] at h
    split at h
    · cases h
    · rename_i ho
      obtain ⟨x, hx, rfl⟩ := map_some h
      refine .server _ _ x hx (by simp) (.inr ⟨?_, .inl ⟨c, rfl⟩⟩) (by simp)
      rintro c' e i' k' ho'
      cases e
      rw [ho] at ho'; cases ho'
  | failUp c => simp [Label.isFailure] at hf
  | failWrite c => simp [Label.isFailure] at hf
  | failDown i k f => simp [Label.isFailure] at hf
  | failBegin i k => simp [Label.isFailure] at hf
  | beginDown i k => exact absurd rfl (hc.2 i k)

/-- Connections end on the server only when the client has closed them, writing fails, or the server
task has ended. -/
theorem server_alive {sv : Service σ C} {x y : Server.State σ C} {l : Server.Label}
    (h : Server.step sv x l = some y) (hy : LoopAlive y) (c : Nat)
    (h1 : l ≠ .recvEnd c) (h2 : l ≠ .flushFail c) (ha : (x.conns c).alive = true) :
    (y.conns c).alive = true := by
  have hx := dead_stays h hy
  have hset : ∀ c0 z, ((x.conns c0).alive = true → z.alive = true) →
      (Server.upd x.conns c0 z c).alive = true := by
    intro c0 z hz
    by_cases e : c = c0
    · subst e; rw [Server.upd_self]; exact hz ha
    · rw [Server.upd_ne _ _ e]; exact ha
  have hsend : ∀ c0 f r, (x.conns c0).alive = true → ((x.conns c0).send f r).1.alive = true := by
    intro c0 f r h
    unfold Server.Conn.send
    split <;> exact h
  cases Server.step_Step h <;> first
    | exact ha
    | exact hset _ _ (hsend _ _ _)
    | exact hset _ _ (fun _ => rfl)
    | exact hset _ _ id
    | skip
  case sendFail hl => exact absurd hx hl
  case recvEnd c0 h0 =>
    have e : c ≠ c0 := by rintro rfl; exact h1 rfl
    show (Server.upd x.conns c0 (x.conns c0).close c).alive = true
    rw [Server.upd_ne _ _ e]; exact ha
  case flushFail c0 _ _ _ _ =>
    have e : c ≠ c0 := by rintro rfl; exact h2 rfl
    show (Server.upd x.conns c0 (x.conns c0).close c).alive = true
    rw [Server.upd_ne _ _ e]; exact ha

theorem owner_lt {sv : Service σ C} {b : σ} {s : State σ C} (h : Reachable sv b s) :
    ∀ c i k, s.owner c = some (i, k) → k < (s.clients i).nsock := by
  refine h.induct (P := fun s => ∀ c i k, s.owner c = some (i, k) → k < (s.clients i).nsock)
    (by intro c i k h; simp [init] at h) ?_
  clear h s
  intro s l s' hr ih hst c i k ho
  have hclient : ∀ j l x, Client.step (s.clients j) l = some x → s.owner c = some (i, k) →
      k < ((s.setClient j x).clients i).nsock := by
    intro j l x h ho
    by_cases e : i = j
    · subst e
      rw [setClient_self]
      exact Nat.lt_of_lt_of_le (ih c i k ho) (client_nsock (hr.client i) h)
    · rw [setClient_ne _ _ e]; exact ih c i k ho
  cases step_Move hst with
  | client j l x h hl => exact hclient j l x h ho
  | server => exact ih c i k ho
  | foreign => exact ih c i k ho
  | accept i' k' x h hk hw hu =>
    simp only at ho
    split at ho
    · cases ho
      apply Classical.byContradiction
      intro hn
      rw [(Client.inv_conn (hr.client i)).fresh k (by simpa using hn)] at hk
      exact hk rfl
    · exact ih c i k ho
  | deliver => exact ih c i k ho
  | respond c' j k' r x ho' hm h => exact hclient j _ x h ho

/-- In calm histories: as long as the server task runs, connections of sockets in use are alive, and
messages of pending requests have gone to open sockets. -/
theorem calm_alive {sv : Service σ C} {b : σ} {ls : List Label} {s : State σ C}
    (h : run sv (init b) ls = some s) (hc : CalmS sv (init b) ls) :
    LoopAlive s.server → ∀ c i k, s.owner c = some (i, k) → ((s.clients i).socks k).Live →
      (s.server.conns c).alive = true := by
  refine calm_induct (Q := fun _ => True) (P := fun s => LoopAlive s.server → ∀ c i k,
    s.owner c = some (i, k) → ((s.clients i).socks k).Live → (s.server.conns c).alive = true)
    (by intro _ c i k h; simp [init] at h) ?_ h hc (fun _ _ => trivial)
  clear h hc s ls
  intro s l s' hr ih hst hf hcl _ hla c i k ho hlive
  have hclient : ∀ j l x, Client.step (s.clients j) l = some x → LoopAlive s.server →
      s.owner c = some (i, k) → (((s.setClient j x).clients i).socks k).Live →
      (s.server.conns c).alive = true := by
    intro j l x h hla ho hlive
    by_cases e : i = j
    · subst e
      rw [setClient_self] at hlive
      exact ih hla c i k ho (client_live_back (hr.client i) h (owner_lt hr c i k ho) hlive)
    · rw [setClient_ne _ _ e] at hlive; exact ih hla c i k ho hlive
  cases step_CMove hst hf hcl with
  | client L j l x h hc' hg hu => exact hclient j l x h hla ho hlive
  | server L l x h hc' hL hi =>
    refine server_alive h hla c ?_ ?_ (ih (dead_stays h hla) c i k ho hlive)
    · rintro rfl
      rcases hL with rfl | ⟨hL, _⟩
      · have := hi rfl; simp [isInternal] at this
      · exact hL c rfl i k ho hlive
    · rintro rfl
      rcases hL with rfl | ⟨_, ⟨_, hL⟩ | ⟨_, _, hL⟩⟩
      · have := hi rfl; simp [isInternal] at this
      · cases hL
      · cases hL
  | foreign x h =>
    exact server_alive h hla c (by simp) (by simp) (ih (dead_stays h hla) c i k ho hlive)
  | accept i' k' x h hk hw hu =>
    simp only at ho
    split at ho
    · rename_i e
      cases ho
      show (x.conns c).alive = true
      cases Server.step_Step h
      show (Server.upd s.server.conns s.server.nconn Server.freshConn c).alive = true
      rw [e, Server.upd_self]; rfl
    · exact server_alive h hla c (by simp) (by simp)
        (ih (dead_stays h hla) c i k ho hlive)
  | deliver c' i' k' m x ho' hm h =>
    exact server_alive h hla c (by simp) (by simp) (ih (dead_stays h hla) c i k ho hlive)
  | respond c' j k' r x ho' hm h => exact hclient j _ x h hla ho hlive

theorem run_snoc {sv : Service σ C} {s s₁ s₂ : State σ C} {ls : List Label} {l : Label}
    (h : run sv s ls = some s₁) (h' : step sv s₁ l = some s₂) : run sv s (ls ++ [l]) = some s₂ := by
  rw [run_append, h]; simp [run, h']

/-- In calm histories the socket of a client is connecting or open. -/
theorem calm_socket {sv : Service σ C} {b : σ} {ls : List Label} {s : State σ C}
    (h : run sv (init b) ls = some s) (hc : CalmS sv (init b) ls) :
    ∀ i k, (s.clients i).socket = some k → ((s.clients i).socks k).Live := by
  refine calm_induct (Q := fun _ => True) (P := fun s => ∀ i k, (s.clients i).socket = some k →
    ((s.clients i).socks k).Live) (by intro i k h; simp [init, Client.init] at h) ?_ h hc
    (fun _ _ => trivial)
  clear h hc s ls
  intro s l s' hr ih hst hf hcl _ i
  have hclient : ∀ j l x, Client.step (s.clients j) l = some x → (∀ k, l ≠ .closing k) →
      ∀ k, ((s.setClient j x).clients i).socket = some k →
      (((s.setClient j x).clients i).socks k).Live := by
    intro j l x h hg
    by_cases e : i = j
    · subst e
      rw [setClient_self]
      exact socket_live_step (hr.client i) (ih i) h hg
    · rw [setClient_ne _ _ e]; exact ih i
  cases step_CMove hst hf hcl with
  | client L j l x h hc' hg hu => exact hclient j l x h hg
  | server => exact ih i
  | foreign => exact ih i
  | accept => exact ih i
  | deliver => exact ih i
  | respond c' j k' r x ho' hm h => exact hclient j _ x h (by rintro _ ⟨⟩)

/-- The close event of the socket in use needs a connection closed by the server. -/
theorem close_event {sv : Service σ C} {b : σ} {ls : List Label} {s s' : State σ C} {l : Label}
    (h : run sv (init b) ls = some s) (hc : CalmS sv (init b) ls) (hla : LoopAlive s.server)
    (hst : step sv s l = some s')
    (hcl : ∀ i k, l = .endDown i k → ∀ k', (s.clients i).socket = some k' → k' = k) :
    Still s l := by
  have hr : Reachable sv b s := ⟨ls, h⟩
  refine ⟨?_, ?_⟩
  rotate_left
  · rintro i k rfl
    simp only [step] at hst
    split at hst
    · rename_i he
      obtain ⟨x, hx, rfl⟩ := map_some hst
      have hop : ((s.clients i).socks k).st = .opened := by
        cases Client.step_Step hx with
        | closing _ _ h => exact h
      unfold State.serverClosed at he
      obtain ⟨c, _, hc'⟩ := List.any_eq_true.1 he
      simp only [Bool.and_eq_true, beq_iff_eq, Bool.not_eq_true'] at hc'
      rw [calm_alive h hc hla c i k hc'.1 (.inr hop)] at hc'
      cases hc'.2
    · cases hst
  rintro i k rfl
  cases hs : (s.clients i).socket with
  | none => rfl
  | some k' =>
    exfalso
    have := hcl i k rfl k' hs
    subst this
    have hlive := calm_socket h hc i k' hs
    simp only [step] at hst
    split at hst
    · rename_i he
      rcases he with he | he
      · unfold Client.Sock.Live at hlive
        rw [he] at hlive
        rcases hlive with hlive | hlive <;> cases hlive
      · unfold State.serverClosed at he
        obtain ⟨c, _, hc'⟩ := List.any_eq_true.1 he
        simp only [Bool.and_eq_true, beq_iff_eq, Bool.not_eq_true'] at hc'
        rw [calm_alive h hc hla c i k' hc'.1 hlive] at hc'
        cases hc'.2
    · cases hst

theorem loop_back {sv : Service σ C} {s s' : State σ C} {l : Label} (h : step sv s l = some s')
    (ha : LoopAlive s'.server) : LoopAlive s.server := by
  cases step_Move h with
  | client => exact ha
  | server l x hx => exact dead_stays hx ha
  | foreign x hx => exact dead_stays hx ha
  | accept i k x hx => exact dead_stays hx ha
  | deliver c i k m x ho hm hx => exact dead_stays hx ha
  | respond => exact ha

/-- Without the server task nothing is executed. -/
theorem dead_log {sv : Service σ C} : ∀ {ls : List Label} {s s' : State σ C}, run sv s ls = some s' →
    ¬ LoopAlive s.server → s'.server.log = s.server.log := by
  intro ls
  induction ls with
  | nil => intro s s' h _; simp only [run, Option.some.injEq] at h; rw [h]
  | cons l ls ih =>
    intro s s' h hd
    simp only [run] at h
    cases h1 : step sv s l with
    | none => rw [h1] at h; cases h
    | some s1 =>
      rw [h1] at h
      rw [ih h (fun ha => hd (loop_back h1 ha))]
      cases step_Move h1 with
      | client => rfl
      | server l x hx => exact (Server.step_dead hd hx).2.1
      | foreign x hx => exact (Server.step_dead hd hx).2.1
      | accept i k x hx => exact (Server.step_dead hd hx).2.1
      | deliver c i k m x ho hm hx => exact (Server.step_dead hd hx).2.1
      | respond => rfl

/-- As long as the server task runs, no close event reaches a client that has a socket. -/
theorem calm_strict {sv : Service σ C} {b : σ} : ∀ {ls : List Label} {s : State σ C},
    run sv (init b) ls = some s → Calm sv (init b) ls → LoopAlive s.server →
    CalmS sv (init b) ls := by
  have key : ∀ (n : Nat) (ls : List Label) (s : State σ C), ls.length = n →
      run sv (init b) ls = some s → Calm sv (init b) ls → LoopAlive s.server →
      CalmS sv (init b) ls := by
    intro n
    induction n with
    | zero =>
      intro ls s hl _ _ _
      rw [List.length_eq_zero_iff] at hl; subst hl
      trivial
    | succ n ih =>
      intro ls s' hl hrun hcalm ha
      rcases List.eq_nil_or_concat ls with rfl | ⟨ls, l, rfl⟩
      · simp at hl
      rw [List.concat_eq_append] at hrun hcalm hl ⊢
      rw [run_append] at hrun
      cases hs : run sv (init b) ls with
      | none => rw [hs] at hrun; cases hrun
      | some s =>
        rw [hs] at hrun
        simp only [Option.bind_some, run] at hrun
        cases hst : step sv s l with
        | none => rw [hst] at hrun; cases hrun
        | some s1 =>
          rw [hst] at hrun
          simp only [Option.some.injEq] at hrun
          subst hrun
          obtain ⟨hcalm1, hf, hcl, _⟩ := Calm_append hcalm hs
          have ha' := loop_back hst ha
          have hS := ih ls s (by simpa using hl) hs hcalm1 ha'
          exact CalmS_snoc hf ls _ s hS hs (close_event hs hS ha' hst hcl)
  intro ls s; exact key ls.length ls s rfl

theorem calm_protected {sv : Service σ C} {b : σ} {ls : List Label} {s : State σ C}
    (h : run sv (init b) ls = some s) (hc : CalmS sv (init b) ls) :
    ∀ i, (s.clients i).calls.length ≤ 2 ^ 53 → Protected (s.clients i) := by
  refine calm_induct (Q := fun _ => True) (P := fun s => ∀ i,
    (s.clients i).calls.length ≤ 2 ^ 53 → Protected (s.clients i))
    (by intro i _ j hj; simp [init, Client.init] at hj) ?_ h hc (fun _ _ => trivial)
  clear h hc s ls
  intro s l s' hr ih hst hf hcl _ i
  have hclient : ∀ j l x, Client.step (s.clients j) l = some x →
      (∀ k f, l = .closed k f → (s.clients j).socket = none) → (∀ k, l ≠ .closing k) →
      ((s.setClient j x).clients i).calls.length ≤ 2 ^ 53 →
      Protected ((s.setClient j x).clients i) := by
    intro j l x h hl hg hn
    by_cases e : i = j
    · subst e
      rw [setClient_self] at hn ⊢
      exact protected_step (hr.client i) (ih i (Nat.le_trans (client_calls h).length_le hn)) h hl
        hg hn
    · rw [setClient_ne _ _ e] at hn ⊢; exact ih i hn
  cases step_CMove hst hf hcl with
  | client L j l x h hc' hg hu => exact hclient j l x h hc' hg
  | server => exact ih i
  | foreign => exact ih i
  | accept => exact ih i
  | deliver => exact ih i
  | respond c' j k' r x ho' hm h => exact hclient j _ x h (by rintro _ _ ⟨⟩) (by rintro _ ⟨⟩)

/-! ## What has been delivered was answered -/

theorem received_due {x : Client.State} {j : Nat} {d : Json} (h : d ∈ Client.due x j) :
    ((x.subs j).id, d) ∈ x.received := by
  unfold Client.due ClientSpec.dataOf at h
  obtain ⟨p, hp, rfl⟩ := List.mem_map.1 h
  obtain ⟨h1, h2⟩ := List.mem_filter.1 hp
  have : p.1 = (x.subs j).id := by simpa using h2
  rw [← this]
  unfold Client.window at h1
  exact List.mem_of_mem_take (List.mem_of_mem_drop h1)

/-- Data given to a subscription is the result of the executed request with its id. -/
theorem got_logged {sv : Service σ C} {b : σ} {s : State σ C} (hr : Reachable sv b s) {i j : Nat}
    (hj : j < (s.clients i).nsub) {d : Json} (hd : d ∈ ((s.clients i).subs j).got) :
    ∃ c k m, s.owner c = some (i, k) ∧ m ∈ sentOn (s.clients i) k ∧
      m.id = ((s.clients i).subs j).id ∧ ∃ l₁ l₂,
      s.server.log = l₁ ++ (c, requestOf m.id m.ns m.method m.args) :: l₂ ∧
      (Returns sv (replay sv b l₁) (requestOf m.id m.ns m.method m.args) d ∨
       ∃ items n, Streams sv (replay sv b l₁) (requestOf m.id m.ns m.method m.args) items ∧
         items n = some (.ok d)) := by
  have hdue := ((Client.inv_some (hr.client i)).got j hj).1.subset hd
  obtain ⟨c, k, r, ho, hw, hp⟩ := inv_recv hr i _ (received_due hdue)
  obtain ⟨src, hsrc⟩ := written_produced hr.server hw
  obtain ⟨m, hm, e, l₁, l₂, hl, hres⟩ := answer_source hr ho hsrc hp
  refine ⟨c, k, m, ho, hm, e, l₁, l₂, by rw [e]; exact hl, ?_⟩
  rw [e]
  rcases hres with ⟨_, h⟩ | ⟨items, n, _, h1, h2⟩
  · exact .inl h
  · exact .inr ⟨items, n, h1, h2⟩

/-! ## The server task survives -/

/-- The message calls a stream, if anything. -/
def IsStreamMsg (sv : Service σ C) (m : Client.Msg) : Prop :=
  ∀ call, sv.decode (WireSpec.callValue m.ns m.method (m.args.map Json.toValue)) = .ok call →
    sv.isStream call = true

/-- Messages that are no stream calls belong to requests. -/
def Asked (sv : Service σ C) (x : Client.State) : Prop :=
  ∀ m ∈ x.calls, IsStreamMsg sv m ∨
    ∃ j, j < x.nsub ∧ (x.subs j).kind = .request ∧ (x.subs j).id = m.id

theorem asked_step {sv : Service σ C} {x y : Client.State} {l : Client.Label} (hP : Asked sv x)
    (h : Client.step x l = some y)
    (hs : ∀ ns m a, l = .subscribe ns m a → ∀ call,
      sv.decode (WireSpec.callValue ns m (a.map Json.toValue)) = .ok call →
        sv.isStream call = true) : Asked sv y := by
  have hold : ∀ m ∈ x.calls, IsStreamMsg sv m ∨
      ∃ j, j < y.nsub ∧ (y.subs j).kind = .request ∧ (y.subs j).id = m.id := by
    intro m hm
    rcases hP m hm with hm | ⟨j, h1, h2, h3⟩
    · exact .inl hm
    · obtain ⟨a1, a2, a3, _⟩ := Client.step_sub h h1
      exact .inr ⟨j, a1, a2.trans h2, a3.trans h3⟩
  intro m hm
  cases Client.step_Step h with
  | request ns m' a =>
    have hc : (x.request (x.newMsg ns m' a)).calls = x.calls ++ [x.newMsg ns m' a] := by
      unfold Client.State.request; simp [Client.State.issue]
    rw [hc, List.mem_append, List.mem_singleton] at hm
    rcases hm with hm | rfl
    · exact hold m hm
    · refine .inr ⟨x.nsub, ?_⟩
      unfold Client.State.request
      simp [Client.State.issue, Client.State.addSub]
  | subscribe ns m' a =>
    have hc : (x.subscribe (x.newMsg ns m' a)).calls = x.calls ++ [x.newMsg ns m' a] := by
      unfold Client.State.subscribe; simp [Client.State.issue]
    rw [hc, List.mem_append, List.mem_singleton] at hm
    rcases hm with hm | rfl
    · exact hold m hm
    · exact .inl (hs ns m' a rfl)
  | opened k =>
    rw [Client.State.foldl_openAndSend_calls] at hm
    exact hold m hm
  | _ =>
    exact hold m (by
      simpa [Client.State.onError, Client.State.goneClean, Client.State.beginClose,
        Client.State.receive] using hm)

/-- What kills the server task. -/
theorem server_dies {sv : Service σ C} {x y : Server.State σ C} {l : Server.Label}
    (h : Server.step sv x l = some y) (hx : LoopAlive x) (hy : ¬ LoopAlive y) :
    l = .takePanic ∨ l = .methodPanic ∨ (l = .loopExit ∧ x.held = false) ∨
    (l = .methodDone ∧ ∃ c id call i, x.loop = .busy c id call i ∧ (x.conns c).alive = false) := by
  cases Server.step_Step h
  case takePanic => exact .inl rfl
  case methodPanic => exact .inr (.inl rfl)
  case methodFail c id call i h1 h2 => exact .inr (.inr (.inr ⟨rfl, c, id, call, i, h1, h2⟩))
  case loopExit hl hq hh hc => exact .inr (.inr (.inl ⟨rfl, hh⟩))
  case takeMethod => exact absurd trivial hy
  case methodOk => exact absurd trivial hy
  all_goals exact absurd hx hy

theorem server_held {sv : Service σ C} {x y : Server.State σ C} {l : Server.Label}
    (h : Server.step sv x l = some y) (hl : l ≠ .dropProxy) (hx : x.held = true) :
    y.held = true := by
  cases Server.step_Step h
  case dropProxy => exact absurd rfl hl
  all_goals exact hx

theorem calls_back {sv : Service σ C} {s s' : State σ C} {l : Label} (h : step sv s l = some s')
    (i : Nat) : (s.clients i).calls <+: (s'.clients i).calls := by
  have hset : ∀ j x, (s.clients j).calls <+: x.calls →
      (s.clients i).calls <+: ((s.setClient j x).clients i).calls := by
    intro j x hp
    by_cases e : i = j
    · subst e; rw [setClient_self]; exact hp
    · rw [setClient_ne _ _ e]; exact List.prefix_refl _
  cases step_Move h with
  | client j l x hx hl => exact hset j x (client_calls hx)
  | server => exact List.prefix_refl _
  | foreign => exact List.prefix_refl _
  | accept => exact List.prefix_refl _
  | deliver => exact List.prefix_refl _
  | respond c j k r x ho hm hx =>
    exact hset j x (by rw [(client_message hx).2.2]; exact List.prefix_refl _)

/-- A request the server is working on comes from a live connection. -/
theorem busy_alive {sv : Service σ C} {b : σ} {ls : List Label} {s : State σ C}
    (hrun : run sv (init b) ls = some s) (hc : CalmS sv (init b) ls) {c i k : Nat}
    (ho : s.owner c = some (i, k)) (hn : (s.clients i).calls.length ≤ 2 ^ 53)
    (hask : Asked sv (s.clients i)) {id : Nat} {call : C} {inp : Server.Input}
    (hb : s.server.loop = .busy c id call inp) : (s.server.conns c).alive = true := by
  have hr : Reachable sv b s := ⟨ls, hrun⟩
  have hla : LoopAlive s.server := by unfold LoopAlive; rw [hb]; trivial
  obtain ⟨v, rfl, hdec, hstr⟩ := Server.inv_busy hr.server _ _ _ _ hb
  have hq := (Server.inv_queue hr.server).1 hla
  have hinf : inflight s.server = [(c, .ok (.exec id v))] := by unfold inflight; rw [hb]
  have hacc : (c, Except.ok (Request.exec id v)) ∈ s.server.accepted := by
    rw [hq, hinf]; simp
  obtain ⟨m, hm, e⟩ := accepted_message hr ho hacc
  have hm := List.mem_of_mem_take hm
  unfold requestOf at e
  simp only [Except.ok.injEq, Request.exec.injEq] at e
  obtain ⟨rfl, rfl⟩ := e
  rcases hask m (sent_calls (hr.client i) (sentOn_sent.1 hm)) with hs | ⟨j, h1, h2, h3⟩
  · rw [hs call hdec] at hstr; cases hstr
  · cases hu : ((s.clients i).subs j).until_ with
    | none =>
      have := calm_protected hrun hc i hn j h1 h2 hu k m (sentOn_sent.1 hm) h3.symm
      exact calm_alive hrun hc hla c i k ho (.inr this)
    | some n =>
      exfalso
      have hgot := (Client.inv_live (hr.client i)).kept j h1 h2 (by rw [hu]; simp)
      obtain ⟨d, hd⟩ := List.exists_mem_of_ne_nil _ hgot
      obtain ⟨c', k', m', ho', hm', e', l₁, l₂, hl, _⟩ := got_logged hr h1 hd
      obtain ⟨hk, hmm⟩ := sent_unique (hr.client i) hn hm hm' (by rw [e', h3])
      subst hk; subst hmm
      have := (inv_own hr).inj _ _ _ ho ho'
      subst this
      have hnd := inv_once hr i hn
      unfold acceptedFrom at hnd
      rw [hq, hinf, hl] at hnd
      have hcl : ofClient s i c = true := ofClient_iff.2 ⟨k, ho⟩
      simp only [List.filter_append, List.filter_cons, hcl, if_true, List.map_append,
        List.map_cons, List.append_assoc] at hnd
      have := (List.nodup_append.1 hnd).2.1
      rw [List.cons_append, List.nodup_cons] at this
      exact this.1 (by simp [requestOf])

/-- What keeps the server task alive. -/
structure InvCalm (sv : Service σ C) (s : State σ C) : Prop where
  alive : LoopAlive s.server
  held : s.server.held = true
  owned : ∀ c, c < s.server.nconn → s.owner c ≠ none
  asked : ∀ i, Asked sv (s.clients i)

theorem calm_server {sv : Service σ C} {b : σ} : ∀ {ls : List Label} {s : State σ C},
    run sv (init b) ls = some s → Calm sv (init b) ls →
    (∀ l ∈ ls, Label.harmless l = true ∧ Label.generated sv l) →
    (∀ i, (s.clients i).calls.length ≤ 2 ^ 53) → InvCalm sv s := by
  have key : ∀ (n : Nat) (ls : List Label) (s : State σ C), ls.length = n →
      run sv (init b) ls = some s → Calm sv (init b) ls →
      (∀ l ∈ ls, Label.harmless l = true ∧ Label.generated sv l) →
      (∀ i, (s.clients i).calls.length ≤ 2 ^ 53) → InvCalm sv s := by
    intro n
    induction n with
    | zero =>
      intro ls s hl hrun _ _ _
      rw [List.length_eq_zero_iff] at hl; subst hl
      simp only [run, Option.some.injEq] at hrun
      subst hrun
      exact ⟨trivial, rfl, by intro c hc; simp [init, Server.init] at hc,
        by intro i m hm; simp [init, Client.init] at hm⟩
    | succ n ih =>
      intro ls s' hl hrun hcalm hq hn'
      rcases List.eq_nil_or_concat ls with rfl | ⟨ls, l, rfl⟩
      · simp at hl
      rw [List.concat_eq_append] at hrun hcalm hq hl
      rw [run_append] at hrun
      cases hs : run sv (init b) ls with
      | none => rw [hs] at hrun; cases hrun
      | some s =>
        rw [hs] at hrun
        simp only [Option.bind_some, run] at hrun
        cases hst : step sv s l with
        | none => rw [hst] at hrun; cases hrun
        | some s1 =>
          rw [hst] at hrun
          simp only [Option.some.injEq] at hrun
          subst hrun
          obtain ⟨hcalm1, hf, hcl, _⟩ := Calm_append hcalm hs
          have hn : ∀ i, (s.clients i).calls.length ≤ 2 ^ 53 := fun i =>
            Nat.le_trans (calls_back hst i).length_le (hn' i)
          have hI := ih ls s (by simpa using hl) hs hcalm1
            (fun l' h' => hq l' (List.mem_append_left _ h')) hn
          have hcalm1 := calm_strict hs hcalm1 hI.alive
          have hcl := close_event hs hcalm1 hI.alive hst hcl
          obtain ⟨hharm, hgen⟩ := hq l (by simp)
          have hr : Reachable sv b s := ⟨ls, hs⟩
          have halive : ∀ l' x, Server.step sv s.server l' = some x →
              (l' = .takePanic → l = .server .takePanic) →
              (l' = .methodPanic → l = .server .methodPanic) → LoopAlive x := by
            intro l' x h h1 h2
            apply Classical.byContradiction
            intro hdead
            rcases server_dies h hI.alive hdead with e | e | ⟨_, e⟩ | ⟨_, c, id, call, inp, hb, hd⟩
            · have := h1 e; subst this; simp [Label.harmless] at hharm
            · have := h2 e; subst this; simp [Label.harmless] at hharm
            · rw [hI.held] at e; cases e
            · have hlt : c < s.server.nconn := by
                have hq := (Server.inv_queue hr.server).1 hI.alive
                refine (Server.inv_fresh hr.server).1 (c, inp) ?_
                rw [hq]; unfold inflight; rw [hb]; simp
              have hne := hI.owned c hlt
              cases ho : s.owner c with
              | none => exact hne ho
              | some ik =>
                obtain ⟨i, k⟩ := ik
                have := busy_alive hs hcalm1 ho (hn i) (hI.asked i) hb
                rw [hd] at this; cases this
          have hclient : ∀ j l' x, Client.step (s.clients j) l' = some x →
              ((∃ l'', l = .client j l'' ∧ l' = l'') ∨ ∀ ns m a, l' ≠ .subscribe ns m a) →
              ∀ i, Asked sv ((s.setClient j x).clients i) := by
            intro j l' x h hsub i
            by_cases e : i = j
            · subst e
              rw [setClient_self]
              refine asked_step (hI.asked i) h ?_
              rintro ns m a rfl
              rcases hsub with ⟨l'', rfl, rfl⟩ | h'
              · exact hgen
              · exact absurd rfl (h' ns m a)
            · rw [setClient_ne _ _ e]; exact hI.asked i
          cases step_CMove hst hf hcl with
          | client L j l x h hc' hg hu =>
            exact ⟨hI.alive, hI.held, hI.owned, hclient j l x h hu⟩
          | server L l' x h hc' hL hi =>
            have hnc := (server_nconn h).2 hc'
            refine ⟨halive l' x h ?_ ?_, server_held h ?_ hI.held, ?_, hI.asked⟩
            · rintro rfl; rcases hL with hL | ⟨_, ⟨_, hL⟩ | ⟨_, _, hL⟩⟩
              · exact hL
              · cases hL
              · cases hL
            · rintro rfl; rcases hL with hL | ⟨_, ⟨_, hL⟩ | ⟨_, _, hL⟩⟩
              · exact hL
              · cases hL
              · cases hL
            · rintro rfl; rcases hL with hL | ⟨_, ⟨_, hL⟩ | ⟨_, _, hL⟩⟩
              · subst hL; simp [Label.harmless] at hharm
              · cases hL
              · cases hL
            · intro c hc
              exact hI.owned c (by rw [← hnc]; exact hc)
          | foreign x h => exact absurd hgen (by simp [Label.generated])
          | accept i k x h hk hw hu =>
            have hnc := (server_nconn h).1 rfl
            refine ⟨halive _ x h (by simp) (by simp), server_held h (by simp) hI.held, ?_, hI.asked⟩
            intro c hc
            have hc : c < x.nconn := hc
            show (if c = s.server.nconn then some (i, k) else s.owner c) ≠ none
            split
            · simp
            · exact hI.owned c (by omega)
          | deliver c i k m x ho hm h =>
            have hnc := (server_nconn h).2 (by simp)
            refine ⟨halive _ x h (by simp) (by simp), server_held h (by simp) hI.held, ?_, hI.asked⟩
            intro c' hc
            exact hI.owned c' (by rw [← hnc]; exact hc)
          | respond c j k r x ho hm h =>
            exact ⟨hI.alive, hI.held, hI.owned, hclient j _ x h (.inr (by rintro _ _ _ ⟨⟩))⟩
  intro ls s; exact key ls.length ls s rfl

end Verif.System
