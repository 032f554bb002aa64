import Verif.System.Fair

/-!
# Fair executions: from the call to the delivery (proof helpers)
-/

namespace Verif.System
open Verif Verif.ServerSpec Verif.SystemSpec

variable {σ C : Type} {sv : Service σ C} {b : σ} {st : Nat → State σ C} {lab : Nat → Option Label}

theorem enabled_of {s : State σ C} {l : Label} (h : (step sv s l).isSome = true) :
    Enabled sv s l := Option.isSome_iff_exists.1 h

/-- What a moment changes at a client. -/
theorem Good.client (G : Good sv b st lab) (i n : Nat) :
    (st (n + 1)).clients i = (st n).clients i ∨ ∃ l, Client.step ((st n).clients i) l =
      some ((st (n + 1)).clients i) ∧ (∀ k f, l = .closed k f → ((st n).clients i).socket = none) ∧
      ∀ k, l ≠ .closing k := by
  rcases G.ex.next n with ⟨_, h2⟩ | ⟨l, h1, h2⟩
  · exact .inl (by rw [h2])
  · have hset : ∀ j l x, Client.step ((st n).clients j) l = some x →
        (∀ k f, l = .closed k f → ((st n).clients j).socket = none) → (∀ k, l ≠ .closing k) →
        ((st n).setClient j x).clients i = (st n).clients i ∨
        ∃ l, Client.step ((st n).clients i) l = some (((st n).setClient j x).clients i) ∧
          (∀ k f, l = .closed k f → ((st n).clients i).socket = none) ∧ ∀ k, l ≠ .closing k := by
      intro j l x hx hc hg
      by_cases e : i = j
      · subst e; rw [setClient_self]; exact .inr ⟨l, hx, hc, hg⟩
      · rw [setClient_ne _ _ e]; exact .inl rfl
    have hm := step_CMove h2 (G.peace.labels n l h1).1 (G.closed h1 h2)
    generalize hs' : st (n + 1) = s' at hm
    cases hm with
    | client L j l x h hc hg hu => exact hset j l x h hc hg
    | server => exact .inl rfl
    | foreign => exact .inl rfl
    | accept => exact .inl rfl
    | deliver => exact .inl rfl
    | respond c j k r x ho hm h => exact hset j _ x h (by rintro _ _ ⟨⟩) (by rintro _ ⟨⟩)

theorem Good.sent (G : Good sv b st lab) (i : Nat) {n m : Nat} (h : n ≤ m) :
    ((st n).clients i).sent <+: ((st m).clients i).sent := by
  obtain ⟨ls, hls⟩ := G.ex.later h
  obtain ⟨cl, hcl⟩ := run_client i hls
  have hr := (G.ex.reach n).client i
  clear hls
  generalize (st m).clients i = y at hcl ⊢
  generalize (st n).clients i = x at hcl hr ⊢
  induction cl generalizing x with
  | nil => simp only [Client.run, Option.some.injEq] at hcl; subst hcl; exact List.prefix_refl _
  | cons l ls ih =>
    simp only [Client.run] at hcl
    cases h1 : Client.step x l with
    | none => rw [h1] at hcl; cases hcl
    | some s1 => rw [h1] at hcl; exact (client_sent hr h1).trans (ih s1 hcl (hr.step h1))

/-- As long as a subscription stays, the socket stays. -/
theorem Good.keeps (G : Good sv b st lab) {i j k n : Nat}
    (hs : ((st n).clients i).socket = some k) (hj : ∀ m, n ≤ m → j ∈ ((st m).clients i).live) :
    ∀ m, n ≤ m → ((st m).clients i).socket = some k ∧ ∀ msg ∈ (((st n).clients i).socks k).waiting,
      msg ∈ (((st m).clients i).socks k).waiting ∨ (k, msg) ∈ ((st m).clients i).sent := by
  intro m
  induction m with
  | zero =>
    intro h
    have : n = 0 := by omega
    subst this
    exact ⟨hs, fun msg hm => .inl hm⟩
  | succ m ih =>
    intro h
    by_cases e : n = m + 1
    · subst e; exact ⟨hs, fun msg hm => .inl hm⟩
    · obtain ⟨i1, i2⟩ := ih (by omega)
      rcases G.client i m with hc | ⟨l, hl, hcl, hcg⟩
      · rw [hc]; exact ⟨i1, i2⟩
      · obtain ⟨k1, k2⟩ := client_keeps ((G.ex.reach m).client i) hl i1 (hj m (by omega))
          (hj (m + 1) h) hcl hcg (G.socket i1)
        refine ⟨k1, fun msg hm => ?_⟩
        rcases i2 msg hm with hw | hw
        · exact k2 msg hw
        · exact .inr ((client_sent ((G.ex.reach m).client i) hl).subset hw)

theorem _root_.Verif.SystemSpec.Execution.owner (h : Execution sv b st lab) {c : Nat}
    {ik : Nat × Nat} {n m : Nat} (hm : n ≤ m) (ho : (st n).owner c = some ik) :
    (st m).owner c = some ik := by
  induction m with
  | zero =>
    have : n = 0 := by omega
    subst this; exact ho
  | succ m ih =>
    by_cases e : n = m + 1
    · subst e; exact ho
    · have ih := ih (by omega)
      rcases h.next m with ⟨_, h2⟩ | ⟨l, _, h2⟩
      · rw [h2]; exact ih
      · have hlt := (inv_own (h.reach m)).lt c ik ih
        have hm := step_Move h2
        generalize hs' : st (m + 1) = s' at hm
        cases hm with
        | client => exact ih
        | server => exact ih
        | foreign => exact ih
        | accept i k x =>
          show (if c = (st m).server.nconn then some (i, k) else (st m).owner c) = some ik
          rw [if_neg (by omega)]; exact ih
        | deliver => exact ih
        | respond => exact ih

section
variable (G : Good sv b st lab) {i k n : Nat} (F : Fair sv st lab i)
  (H : ∀ m, n ≤ m → ((st m).clients i).socket = some k)
include G F H

/-- The socket gets accepted. -/
theorem Good.accepted {msg : Client.Msg}
    (hw : ∀ m, n ≤ m → msg ∈ (((st m).clients i).socks k).waiting) :
    ∃ m c, n ≤ m ∧ (st m).owner c = some (i, k) := by
  apply Classical.byContradiction
  intro hno
  obtain ⟨m, hm, hl⟩ := F.accept k n (fun m hm => by
    have hc := Client.inv_conn ((G.ex.reach m).client i)
    have hne : (((st m).clients i).socks k).waiting ≠ [] := by
      intro e; have := hw m hm; rw [e] at this; cases this
    obtain ⟨w1, w2⟩ := hc.wait k hne
    have hst : (((st m).clients i).socks k).st ≠ .closed := by
      rcases w2 with w2 | w2 <;> rw [w2] <;> simp
    have hun : (st m).unowned i k = true := by
      unfold State.unowned
      rw [List.all_eq_true]
      intro c _
      simp only [bne_iff_ne, ne_eq]
      intro ho
      exact hno ⟨m, c, hm, ho⟩
    apply enabled_of
    simp only [step, hst, w1, hun, ne_eq, not_false_eq_true, and_self, if_true, Server.step,
      (G.inv m).held, Option.isSome_some])
  refine hno ⟨m + 1, (st m).server.nconn, by omega, ?_⟩
  have := G.ex.step hl
  simp only [step] at this
  split at this
  · split at this
    · have := congrArg (fun s => s.owner (st m).server.nconn) (Option.some.inj this)
      simp only [if_true] at this
      exact this.symm
    · cases this
  · cases this

/-- What waits for a socket that stays is sent. -/
theorem Good.transmits {msg : Client.Msg}
    (hw : ∀ m, n ≤ m → msg ∈ (((st m).clients i).socks k).waiting ∨
      (k, msg) ∈ ((st m).clients i).sent) :
    ∃ m, n ≤ m ∧ (k, msg) ∈ ((st m).clients i).sent := by
  apply Classical.byContradiction
  intro hno
  have hwait : ∀ m, n ≤ m → msg ∈ (((st m).clients i).socks k).waiting := by
    intro m hm
    rcases hw m hm with h | h
    · exact h
    · exact absurd ⟨m, hm, h⟩ hno
  obtain ⟨n1, c, h1, ho⟩ := G.accepted F H hwait
  have hown : ∀ m, n1 ≤ m → (st m).owner c = some (i, k) := fun m hm => G.ex.owner hm ho
  have hconn : ∀ m, n1 ≤ m → (((st m).clients i).socks k).st = .connecting := by
    intro m hm
    have hc := Client.inv_conn ((G.ex.reach m).client i)
    have hne : (((st m).clients i).socks k).waiting ≠ [] := by
      intro e; have := hwait m (by omega); rw [e] at this; cases this
    obtain ⟨w1, w2⟩ := hc.wait k hne
    rcases G.socket (H m (by omega)) with hl | hl
    · exact hl
    · rw [hl] at w2; simp at w2
  obtain ⟨m, hm, hl⟩ := F.opened c n1 (fun m hm => by
    obtain ⟨m', h', hp⟩ := F.idle m
    refine ⟨m', h', enabled_of ?_⟩
    simp only [step, hown m' (by omega), State.clientStep, Client.step, hp, hconn m' (by omega),
      Option.map_some, and_self, if_true, Option.isSome_some])
  have hst := G.ex.step hl
  simp only [step, hown m hm] at hst
  obtain ⟨x, hx, he⟩ := map_some hst
  refine hno ⟨m + 1, by omega, ?_⟩
  rw [he, setClient_self]
  have hc := Client.inv_conn ((G.ex.reach m).client i)
  cases Client.step_Step hx with
  | opened _ hp hk =>
    rw [Client.foldl_openAndSend_ready (Client.onOpen_ready hc hk)]
    simp [hwait m (by omega)]

/-- Connections of the socket are alive. -/
theorem Good.alive {c m : Nat} (hm : n ≤ m) (ho : (st m).owner c = some (i, k)) :
    ((st m).server.conns c).alive = true :=
  calm_alive (G.ex.run m) (G.strictTo m) (G.inv m).alive c i k ho
    (G.socket (H m hm))

/-- What has been sent is executed. -/
theorem Good.executed {msg : Client.Msg} {c : Nat} (ho : (st n).owner c = some (i, k))
    (hs : msg ∈ sentOn ((st n).clients i) k) :
    ∃ m, n ≤ m ∧ ∃ l₁ l₂, (st m).server.log =
      l₁ ++ (c, requestOf msg.id msg.ns msg.method msg.args) :: l₂ := by
  have hown : ∀ m, n ≤ m → (st m).owner c = some (i, k) := fun m hm => G.ex.owner hm ho
  have hsent : ∀ m, n ≤ m → sentOn ((st n).clients i) k <+: sentOn ((st m).clients i) k :=
    fun m hm => sentOn_prefix (G.sent i hm) k
  -- the frame reaches the server
  obtain ⟨m1, h1, hup⟩ : ∃ m, n ≤ m ∧ (sentOn ((st n).clients i) k).length ≤ (st m).up c := by
    refine climb_weak (sv := sv) (lab := lab) (st := st) (f := fun m => (st m).up c)
      (fun m _ => G.ex.mono (f := fun s => s.up c) ?_ m) (fun _ => .deliver c)
      (fun _ _ => F.deliver c) ?_ ?_
    · intro s l s' hr hst
      cases step_Move hst with
      | deliver c' i' k' m' x =>
        show s.up c ≤ if c = c' then s.up c' + 1 else s.up c
        split
        · subst c'; omega
        · exact Nat.le_refl _
      | _ => exact Nat.le_refl _
    · intro m hm hlt
      have hlt : (st m).up c < (sentOn ((st m).clients i) k).length :=
        Nat.lt_of_lt_of_le hlt (hsent m hm).length_le
      have hg : (sentOn ((st m).clients i) k)[(st m).up c]? =
          some ((sentOn ((st m).clients i) k)[(st m).up c]) := List.getElem?_eq_getElem hlt
      have halive := G.alive F H hm (hown m hm)
      have hframe : ∃ x, Server.step sv (st m).server
          (.frame c (frameOf ((sentOn ((st m).clients i) k)[(st m).up c]))) = some x := by
        simp only [Server.step, halive, if_true, frameOf]
        cases Server.State.proxySend (st m).server c _ with
        | none => exact ⟨_, rfl⟩
        | some y => exact ⟨y, rfl⟩
      obtain ⟨x, hx⟩ := hframe
      exact enabled_of (by simp only [step, hown m hm, hg, hx, Option.isSome_some])
    · intro m hm _ hl
      have hst := G.ex.step hl
      simp only [step, hown m hm] at hst
      split at hst
      · split at hst
        · have := congrArg (fun s => s.up c) (Option.some.inj hst)
          simp only [if_true] at this
          omega
        · cases hst
      · cases hst
  -- so it has been accepted
  have hacc : (c, requestOf msg.id msg.ns msg.method msg.args) ∈ (st m1).server.accepted := by
    have hall := (inv_up (G.ex.reach m1) c i k (hown m1 h1)).all (G.inv m1).alive
    have hmem : requestOf msg.id msg.ns msg.method msg.args ∈ acceptedOn (st m1).server c := by
      rw [hall]
      have hm' : msg ∈ (sentOn ((st m1).clients i) k).take ((st m1).up c) := by
        obtain ⟨r, hr⟩ := hsent m1 h1
        rw [← hr, List.take_append]
        exact List.mem_append_left _ (by rw [List.take_of_length_le hup]; exact hs)
      refine List.mem_map.2 ⟨msg, hm', ?_⟩
      exact msgInput_eq (call_id_le ((G.ex.reach n).client i)
        (sent_calls ((G.ex.reach n).client i) (sentOn_sent.1 hs)))
    unfold acceptedOn at hmem
    obtain ⟨⟨c', inp⟩, hp, e⟩ := List.mem_map.1 hmem
    obtain ⟨hp', hc⟩ := List.mem_filter.1 hp
    simp only [beq_iff_eq] at hc e
    rw [← hc, ← e]; exact hp'
  -- the loop gets to it
  have hacc_mono : ∀ m, m1 ≤ m → (st m1).server.accepted <+: (st m).server.accepted := fun m hm =>
    G.ex.grows (f := fun s => s.server.accepted) (by
      intro s l s' hr hst
      cases step_Move hst with
      | server l x hx => exact server_accepted hx
      | foreign x hx => exact server_accepted hx
      | accept i k x hx => exact server_accepted hx
      | deliver c i k m x _ _ hx => exact server_accepted hx
      | client => exact List.prefix_refl _
      | respond => exact List.prefix_refl _) hm
  have hle : ∀ z : Server.State σ C, busyNum z ≤ 1 := by
    intro z; unfold busyNum; split <;> omega
  obtain ⟨m2, h2, hprog⟩ : ∃ m, m1 ≤ m ∧
      2 * (st m1).server.accepted.length ≤ progress (st m).server := by
    refine climb_weak (sv := sv) (lab := lab) (st := st) (f := fun m => progress (st m).server)
      (fun m _ => ?_) (fun v => if v % 2 = 1 then .server .methodDone else .server .take)
      (fun v _ => ?_) ?_ ?_
    · rcases G.ex.next m with ⟨_, e⟩ | ⟨l, hl, hst⟩
      · simp only [e]; exact Nat.le_refl _
      · have hh := (G.peace.labels m l hl).2.1
        have hm := step_CMove hst (G.peace.labels m l hl).1
          (G.closed hl hst)
        try simp only
        generalize hs' : st (m + 1) = s' at hm
        cases hm with
        | server L l' x hx hc hL hi =>
          refine server_progress hx ?_
          rintro rfl
          rcases hL with rfl | ⟨_, ⟨_, hL⟩ | ⟨_, _, hL⟩⟩
          · simp [Label.harmless] at hh
          · cases hL
          · cases hL
        | foreign x hx => exact server_progress hx (by simp)
        | accept i k x hx => exact server_progress hx (by simp)
        | deliver c i k m x _ _ hx => exact server_progress hx (by simp)
        | client => exact Nat.le_refl _
        | respond => exact Nat.le_refl _
    · split
      · exact F.methodDone
      · exact F.take
    · intro m hm hlt
      try simp only at hlt ⊢
      cases hloop : (st m).server.loop with
      | dead => exact absurd (G.inv m).alive ((Server.not_alive_iff _).2 hloop)
      | busy c' id call inp =>
        have hodd : progress (st m).server % 2 = 1 := by
          simp only [progress, busyNum, hloop]; omega
        rw [if_pos hodd]
        obtain ⟨x, hx⟩ : ∃ x, Server.step sv (st m).server .methodDone = some x := by
          simp only [Server.step, hloop]
          split <;> exact ⟨_, rfl⟩
        exact enabled_of (by simp only [step, isInternal, if_true, State.serverStep, hx,
            Option.map_some, Option.isSome_some])
      | idle =>
        have heven : ¬ progress (st m).server % 2 = 1 := by
          simp only [progress, busyNum, hloop]; omega
        rw [if_neg heven]
        cases hq : (st m).server.queue with
        | nil =>
          exfalso
          have h3 := (Server.inv_queue (G.ex.reach m).server).1 (G.inv m).alive
          simp only [inflight, hloop, hq, List.append_nil] at h3
          have := (hacc_mono m hm).length_le
          rw [h3] at this
          simp only [progress, busyNum, hloop] at hlt
          omega
        | cons p q =>
          obtain ⟨c', inp⟩ := p
          obtain ⟨x, hx⟩ : ∃ x, Server.step sv (st m).server .take = some x := by
            simp only [Server.step, hloop, hq]; exact ⟨_, rfl⟩
          exact enabled_of (by simp only [step, isInternal, if_true, State.serverStep, hx,
            Option.map_some, Option.isSome_some])
    · intro m hm hlt hl
      try simp only at hl hlt ⊢
      split at hl
      · have hst := G.ex.step hl
        simp only [step, isInternal, if_true, State.serverStep] at hst
        obtain ⟨x, hx, he⟩ := map_some hst
        rw [he]; exact done_progress hx
      · have hst := G.ex.step hl
        simp only [step, isInternal, if_true, State.serverStep] at hst
        obtain ⟨x, hx, he⟩ := map_some hst
        rw [he]; exact take_progress hx
  refine ⟨m2, by omega, ?_⟩
  have hpre : (st m1).server.accepted <+: (st m2).server.log := by
    refine List.prefix_of_prefix_length_le (hacc_mono m2 h2)
      (Server.inv_queue (G.ex.reach m2).server).2 ?_
    have := hle (st m2).server
    unfold progress at hprog
    omega
  exact List.append_of_mem (hpre.subset hacc)

/-- What the server has produced reaches the client, which delivers it. -/
theorem Good.arrives {c : Nat} (ho : (st n).owner c = some (i, k))
    (hopen : ∀ m, n ≤ m → (((st m).clients i).socks k).st = .opened) :
    ∃ m, n ≤ m ∧ ((st m).clients i).phase = .idle ∧
      ((st n).server.conns c).produced.map (·.2) <+:
        ((st m).server.conns c).written.take ((st m).down c) := by
  have hown : ∀ m, n ≤ m → (st m).owner c = some (i, k) := fun m hm => G.ex.owner hm ho
  have hprod : ∀ m, n ≤ m →
      ((st n).server.conns c).produced <+: ((st m).server.conns c).produced := fun m hm =>
    G.ex.grows (f := fun s => (s.server.conns c).produced) (by
      intro s l s' hr hst
      cases step_Move hst with
      | server l x hx => exact server_produced hr.server hx c
      | foreign x hx => exact server_produced hr.server hx c
      | accept i k x hx => exact server_produced hr.server hx c
      | deliver c i k m x _ _ hx => exact server_produced hr.server hx _
      | client => exact List.prefix_refl _
      | respond => exact List.prefix_refl _) hm
  have hwr : ∀ m, ((st m).server.conns c).written.length ≤
      ((st (m + 1)).server.conns c).written.length := fun m =>
    G.ex.mono (f := fun s => (s.server.conns c).written.length) (by
      intro s l s' hr hst
      cases step_Move hst with
      | server l x hx => exact (server_written hr.server hx c).length_le
      | foreign x hx => exact (server_written hr.server hx c).length_le
      | accept i k x hx => exact (server_written hr.server hx c).length_le
      | deliver c i k m x _ _ hx => exact (server_written hr.server hx _).length_le
      | client => exact Nat.le_refl _
      | respond => exact Nat.le_refl _) m
  have hdn : ∀ m, (st m).down c ≤ (st (m + 1)).down c := fun m =>
    G.ex.mono (f := fun s => s.down c) (by
      intro s l s' hr hst
      cases step_Move hst with
      | respond c' i' k' r x =>
        show s.down c ≤ if c = c' then s.down c' + 1 else s.down c
        split
        · subst c'; omega
        · exact Nat.le_refl _
      | _ => exact Nat.le_refl _) m
  -- written
  obtain ⟨m1, h1, hw⟩ : ∃ m, n ≤ m ∧ ((st n).server.conns c).produced.length ≤
      ((st m).server.conns c).written.length := by
    refine climb_weak (sv := sv) (lab := lab) (st := st)
      (f := fun m => ((st m).server.conns c).written.length) (fun m _ => hwr m)
      (fun _ => .server (.flush c)) (fun _ _ => F.flush c) ?_ ?_
    · intro m hm hlt
      try simp only at hlt
      have halive := G.alive F H hm (hown m hm)
      have hch := (Server.inv_chan (G.ex.reach m).server c).1 halive
      have hlen := congrArg List.length hch
      rw [List.length_append, List.length_map] at hlen
      have := (hprod m hm).length_le
      cases hc : ((st m).server.conns c).chan with
      | nil => rw [hc] at hlen; simp at hlen; omega
      | cons r rs =>
        obtain ⟨x, hx⟩ : ∃ x, Server.step sv (st m).server (.flush c) = some x := by
          simp only [Server.step, halive, if_true, hc]; exact ⟨_, rfl⟩
        exact enabled_of (by simp only [step, isInternal, if_true, State.serverStep, hx,
            Option.map_some, Option.isSome_some])
    · intro m hm _ hl
      have hst := G.ex.step hl
      simp only [step, isInternal, if_true, State.serverStep] at hst
      obtain ⟨x, hx, he⟩ := map_some hst
      simp only [he]
      cases Server.step_Step hx with
      | flush _ r rs ha hc => simp
  -- received
  obtain ⟨m2, h2, hd⟩ : ∃ m, m1 ≤ m ∧ ((st n).server.conns c).produced.length ≤ (st m).down c := by
    refine climb_strong (sv := sv) (lab := lab) (st := st)
      (f := fun m => (st m).down c) (fun m _ => hdn m) (F.respond c) ?_ ?_
    · intro m hm hlt
      obtain ⟨m', h', hp⟩ := F.idle m
      refine ⟨m', h', ?_⟩
      have hlt' := hlt m' h'
      try simp only at hlt'
      have hd : (st m').down c < ((st m').server.conns c).written.length := by
        have := mono_le (f := fun m => ((st m).server.conns c).written.length) (n := 0)
          (fun m _ => hwr m) (m := m1) (m' := m') (by omega) (by omega)
        omega
      have hg : ((st m').server.conns c).written[(st m').down c]? =
          some (((st m').server.conns c).written[(st m').down c]) := List.getElem?_eq_getElem hd
      have hy : ∃ y, Client.step ((st m').clients i)
          (.message k (incoming (((st m').server.conns c).written[(st m').down c]))) = some y := by
        simp only [Client.step, hp, hopen m' (by omega)]
        cases ((st m').server.conns c).written[(st m').down c] <;> exact ⟨_, rfl⟩
      obtain ⟨y, hy⟩ := hy
      exact enabled_of (by simp only [step, hown m' (by omega), hg, hy, Option.isSome_some])
    · intro m hm _ hl
      have hst := G.ex.step hl
      simp only [step, hown m (by omega)] at hst
      split at hst
      · split at hst
        · have := congrArg (fun s => s.down c) (Option.some.inj hst)
          simp only [if_true] at this
          omega
        · cases hst
      · cases hst
  obtain ⟨m3, h3, hp⟩ := F.idle m2
  refine ⟨m3, by omega, hp, ?_⟩
  have hd3 : ((st n).server.conns c).produced.length ≤ (st m3).down c := by
    have := mono_le (f := fun m => (st m).down c) (n := 0) (fun m _ => hdn m) (m := m2) (m' := m3)
      (by omega) h3
    try simp only at this
    omega
  have hle := (inv_down (G.ex.reach m3) c i k (hown m3 (by omega))).le
  have a1 : ((st n).server.conns c).produced.map (·.2) <+:
      ((st m3).server.conns c).produced.map (·.2) := (hprod m3 (by omega)).map _
  have a2 := (Server.inv_chan (G.ex.reach m3).server c).2
  refine List.prefix_of_prefix_length_le a1 ((List.take_prefix _ _).trans a2) ?_
  rw [List.length_map, List.length_take]
  omega

end

end Verif.System
