import Verif.System.Call

/-!
# The composed system: requests can be brought to an end (proof helpers)
-/

namespace Verif.System
open Verif Verif.ServerSpec Verif.SystemSpec

variable {σ C : Type}

theorem Calm_snoc {sv : Service σ C} {l : Label} (hf : l.isFailure = false)
    (he : ∀ i k, l ≠ .endDown i k) : ∀ (ls : List Label) (s : State σ C), Calm sv s ls →
    Calm sv s (ls ++ [l]) := by
  intro ls
  induction ls with
  | nil => intro s _; exact ⟨hf, fun i k e => absurd e (he i k), fun _ _ => trivial⟩
  | cons l' ls ih =>
    intro s h
    exact ⟨h.1, h.2.1, fun s' hs => ih s' (h.2.2 s' hs)⟩

/-- Visits left in the delivery in progress. -/
def visitsLeft (x : Client.State) : Nat :=
  match x.phase with
  | .idle => 0
  | .delivering _ _ cursor _ => (x.live.filter (cursor ≤ ·)).length + 1

/-- How much the server loop still has to do for the request it works on. -/
def busyNum (x : Server.State σ C) : Nat :=
  match x.loop with
  | .busy _ _ _ _ => 1
  | _ => 0

/-- A weight that every routine step decreases. -/
def weight (L a q z h w v : Nat) : Nat :=
  (L + 6) * a + ((L + 5) * q + ((L + 4) * z + ((L + 3) * h + ((L + 2) * w + v))))

/-- A measure of what is left to do for a connection; every step of the schedule decreases it. -/
def mu (L : Nat) (s : State σ C) (i c k : Nat) : Nat :=
  weight L ((sentOn (s.clients i) k).length - s.up c) s.server.queue.length (busyNum s.server)
    (s.server.conns c).chan.length ((s.server.conns c).written.length - s.down c)
    (visitsLeft (s.clients i))

theorem weight_deliver (L a q z h w v : Nat) :
    weight L a (q + 1) z h w v < weight L (a + 1) q z h w v := by
  unfold weight; rw [Nat.mul_add, Nat.mul_add]; omega
theorem weight_busy (L a q h w v : Nat) :
    weight L a q 1 h w v < weight L a (q + 1) 0 h w v := by
  unfold weight; rw [Nat.mul_add (L + 5)]; omega
theorem weight_reply (L a q z h h' w v : Nat) (hh : h' ≤ h + 1) :
    weight L a q z h' w v < weight L a (q + 1) z h w v := by
  have : (L + 3) * h' ≤ (L + 3) * (h + 1) := Nat.mul_le_mul_left _ hh
  rw [Nat.mul_add] at this
  unfold weight; rw [Nat.mul_add (L + 5)]; omega
theorem weight_done (L a q h h' w v : Nat) (hh : h' ≤ h + 1) :
    weight L a q 0 h' w v < weight L a q 1 h w v := by
  have : (L + 3) * h' ≤ (L + 3) * (h + 1) := Nat.mul_le_mul_left _ hh
  rw [Nat.mul_add] at this
  unfold weight; omega
theorem weight_flush (L a q z h w v : Nat) :
    weight L a q z h (w + 1) v < weight L a q z (h + 1) w v := by
  unfold weight; rw [Nat.mul_add, Nat.mul_add]; omega
theorem weight_respond (L a q z h w v : Nat) (hv : v ≤ L + 1) :
    weight L a q z h w v < weight L a q z h (w + 1) 0 := by
  unfold weight; rw [Nat.mul_add]; omega
theorem weight_visit (L a q z h w v v' : Nat) (hv : v' < v) :
    weight L a q z h w v' < weight L a q z h w v := by
  unfold weight; omega

/-! ## Visits -/

section
open Client

theorem unsubscribe_sent (z : Client.State) (j : Nat) :
    (z.unsubscribe j).sent = z.sent ∧ (z.unsubscribe j).calls = z.calls ∧
    (z.unsubscribe j).live.length ≤ z.live.length := by
  refine ⟨?_, ?_, ?_⟩
  · simp
  · simp
  · rw [State.unsubscribe_live]; exact List.length_filter_le _ _

theorem finish_sent (l : List Nat) : ∀ (z : Client.State),
    (z.finish l).sent = z.sent ∧ (z.finish l).calls = z.calls ∧
    (z.finish l).live.length ≤ z.live.length := by
  induction l with
  | nil => intro z; exact ⟨rfl, rfl, Nat.le_refl _⟩
  | cons j l ih =>
    intro z
    obtain ⟨a, b, c⟩ := ih (z.unsubscribe j)
    obtain ⟨a', b', c'⟩ := unsubscribe_sent z j
    exact ⟨a.trans a', b.trans b', Nat.le_trans c c'⟩

/-- Visiting is possible while delivering, and gets nearer to the end. -/
theorem visit_possible {x : Client.State} (hr : Client.Reachable x) {id : Nat} {d : Json} {cu : Nat}
    {se : List Nat} (hp : x.phase = .delivering id d cu se) :
    ∃ y, Client.step x .visit = some y ∧ y.sent = x.sent ∧ y.calls = x.calls ∧
      y.live.length ≤ x.live.length ∧ visitsLeft y < visitsLeft x := by
  cases hn : nextSub x.live cu with
  | none =>
    refine ⟨{ x with phase := .idle }.finish se, by simp only [Client.step, hp, hn], ?_⟩
    obtain ⟨a, b, c⟩ := finish_sent se { x with phase := .idle }
    refine ⟨a, b, c, ?_⟩
    unfold visitsLeft
    rw [hp]
    simp
  | some k =>
    refine ⟨{ (x.call k id d).1 with
      phase := .delivering id d (k + 1) (if (x.call k id d).2 then se ++ [k] else se) },
      by simp only [Client.step, hp, hn], by simp, by simp, by simp, ?_⟩
    obtain ⟨n1, n2, n3⟩ := nextSub_some (inv_live hr).sorted hn
    unfold visitsLeft
    rw [hp]
    simp only [State.call_live]
    have : (x.live.filter (k + 1 ≤ ·)).length < (x.live.filter (cu ≤ ·)).length := by
      have hs : x.live.filter (k + 1 ≤ ·) =
          (x.live.filter (cu ≤ ·)).filter (k + 1 ≤ ·) := by
        rw [List.filter_filter]
        refine List.filter_congr ?_
        intro y hy
        by_cases hx1 : k + 1 ≤ y
        · have : cu ≤ y := by omega
          simp [hx1, this]
        · simp [hx1]
      rw [hs]
      refine List.length_filter_lt_length_iff_exists.2 ⟨k, ?_, by simp⟩
      exact List.mem_filter.2 ⟨n1, by simpa using n2⟩
    omega

end

theorem send_length (x : Server.State σ C) (c c' : Nat) (f : Option Nat) (r : Response) :
    (Server.upd x.conns c' ((x.conns c').send f r).1 c).chan.length ≤ (x.conns c).chan.length + 1 ∧
    (Server.upd x.conns c' ((x.conns c').send f r).1 c).written = (x.conns c).written := by
  by_cases e : c = c'
  · subst e
    rw [Server.upd_self]
    unfold Server.Conn.send
    split <;> simp
  · rw [Server.upd_ne _ _ e]; simp

/-- Resolved requests have been executed. -/
theorem Made.resolved {sv : Service σ C} {b : σ} {i j : Nat} {msg : Client.Msg}
    {s : State σ C} (h : Made sv b i j .request msg s) (hn : (s.clients i).calls.length ≤ 2 ^ 53)
    {c k : Nat} (ho : s.owner c = some (i, k)) (hm : msg ∈ sentOn (s.clients i) k)
    (hg : ((s.clients i).subs j).got ≠ []) :
    ∃ l₁ l₂, s.server.log = l₁ ++ (c, requestOf msg.id msg.ns msg.method msg.args) :: l₂ ∧
      ∀ d, Returns sv (replay sv b l₁) (requestOf msg.id msg.ns msg.method msg.args) d →
        ((s.clients i).subs j).got = [d] := by
  have hle := (h.got hn).1.length_le
  cases hgot : ((s.clients i).subs j).got with
  | nil => exact absurd hgot hg
  | cons d' t =>
    have : t = [] := by
      have := List.length_take_le 1 (ClientSpec.dataOf msg.id (s.clients i).received)
      rw [hgot] at hle
      simp only [List.length_cons] at hle
      exact List.eq_nil_of_length_eq_zero (by omega)
    subst this
    obtain ⟨c', k', ho', hm', l₁, l₂, hl, hres⟩ := h.source hn (d := d') (by rw [hgot]; simp)
    obtain ⟨rfl, _⟩ := sent_unique (h.reach.client i) hn hm hm' rfl
    have := (inv_own h.reach).inj _ _ _ ho ho'
    subst this
    refine ⟨l₁, l₂, hl, fun d hd => ?_⟩
    rcases hres with hres | ⟨items, n, hs, _⟩
    · rw [returns_unique hd hres]
    · exact absurd hs (fun hs => returns_not_streams hd hs)

/-- What makes `drive` go on. -/
structure Going (sv : Service σ C) (b : σ) (ls : List Label) (i j c k : Nat) (msg : Client.Msg)
    (s : State σ C) : Prop where
  run : run sv (init b) ls = some s
  calm : Calm sv (init b) ls
  ok : ∀ l ∈ ls, Label.harmless l = true ∧ Label.generated sv l
  calls : ∀ i, (s.clients i).calls.length ≤ 2 ^ 53
  made : Made sv b i j .request msg s
  owner : s.owner c = some (i, k)
  sent : msg ∈ sentOn (s.clients i) k

theorem routine_facts {sv : Service σ C} {l : Label} {i c : Nat} (h : Label.routine i c l) :
    l.isFailure = false ∧ (∀ i k, l ≠ .endDown i k) ∧ Label.harmless l = true ∧
    Label.generated sv l := by
  rcases h with rfl | rfl | rfl | rfl | rfl | rfl <;>
    simp [Label.isFailure, Label.harmless, Label.generated]

theorem Going.after {sv : Service σ C} {b : σ} {ls : List Label} {i j c k : Nat} {msg : Client.Msg}
    {s s' : State σ C} {l : Label} (h : Going sv b ls i j c k msg s)
    (hs : System.step sv s l = some s') (hl : Label.routine i c l)
    (hc : ∀ i, (s'.clients i).calls = (s.clients i).calls) (ho : s'.owner = s.owner)
    (hsent : (s'.clients i).sent = (s.clients i).sent) :
    Going sv b (ls ++ [l]) i j c k msg s' := by
  obtain ⟨h1, h2, h3, h4⟩ := routine_facts (sv := sv) hl
  refine ⟨run_snoc h.run hs, Calm_snoc h1 h2 _ _ h.calm, ?_, fun i => by rw [hc]; exact h.calls i,
    h.made.later (ls := [l]) (by simp [System.run, hs]), by rw [ho]; exact h.owner, ?_⟩
  · intro l' hl'
    rcases List.mem_append.1 hl' with hl' | hl'
    · exact h.ok l' hl'
    · rw [List.mem_singleton] at hl'; subst hl'; exact ⟨h3, h4⟩
  · unfold sentOn; rw [hsent]; exact h.sent

/-- What makes a routine step possible. -/
structure Fit (sv : Service σ C) (b : σ) (i c k : Nat) (s : State σ C) : Prop where
  reach : Reachable sv b s
  owner : s.owner c = some (i, k)
  loop : LoopAlive s.server
  opened : ((s.clients i).socks k).st = .opened
  alive : (s.server.conns c).alive = true
  busy : ∀ c' id call inp, s.server.loop = .busy c' id call inp → (s.server.conns c').alive = true

/-- One routine step. -/
theorem Fit.next {sv : Service σ C} {b : σ} {i c k : Nat}
    {s : State σ C} (h : Fit sv b i c k s) {L : Nat}
    (hL : (s.clients i).live.length ≤ L) :
    ((s.server.conns c).alive = true ∧ Quiet s i c) ∨
    ∃ l s', Label.routine i c l ∧ System.step sv s l = some s' ∧
      (∀ i, (s'.clients i).calls = (s.clients i).calls) ∧ s'.owner = s.owner ∧
      (s'.clients i).sent = (s.clients i).sent ∧ (s'.clients i).live.length ≤ L ∧
      mu L s' i c k < mu L s i c k := by
  have hr := h.reach
  have hrc := hr.client i
  have hopen := h.opened
  have halive := h.alive
  -- a server step
  have hserver : ∀ l x, Label.routine i c (.server l) → isInternal l = true →
      Server.step sv s.server l = some x →
      weight L ((sentOn (s.clients i) k).length - s.up c) x.queue.length (busyNum x)
        (x.conns c).chan.length ((x.conns c).written.length - s.down c)
        (visitsLeft (s.clients i)) < mu L s i c k →
      ∃ l s', Label.routine i c l ∧ System.step sv s l = some s' ∧
        (∀ i, (s'.clients i).calls = (s.clients i).calls) ∧ s'.owner = s.owner ∧
        (s'.clients i).sent = (s.clients i).sent ∧ (s'.clients i).live.length ≤ L ∧
        mu L s' i c k < mu L s i c k := by
    intro l x h1 h2 h3 h4
    refine ⟨.server l, { s with server := x }, h1, ?_, fun _ => rfl, rfl, rfl, hL, h4⟩
    simp only [System.step, h2, if_true, State.serverStep, h3, Option.map_some]
  cases hp : (s.clients i).phase with
  | delivering id d cu se =>
    obtain ⟨y, hy, h1, h2, h3, h4⟩ := visit_possible hrc hp
    refine .inr ⟨.client i .visit, s.setClient i y, by simp [Label.routine], ?_, ?_, rfl, ?_, ?_, ?_⟩
    · simp only [System.step, isLocal, if_true, State.clientStep, hy, Option.map_some]
    · intro i'
      by_cases e : i' = i
      · subst e; rw [setClient_self]; exact h2
      · rw [setClient_ne _ _ e]
    · rw [setClient_self]; exact h1
    · rw [setClient_self]; omega
    · unfold mu
      rw [setClient_self]
      unfold sentOn
      rw [h1]
      exact weight_visit _ _ _ _ _ _ _ _ h4
  | idle =>
    have hv : visitsLeft (s.clients i) = 0 := by unfold visitsLeft; rw [hp]
    have hup := (inv_up hr c i k h.owner).le
    rcases Nat.lt_or_ge (s.up c) (sentOn (s.clients i) k).length with hlt | hge
    · -- a frame travels
      have hm : (sentOn (s.clients i) k)[s.up c]? = some ((sentOn (s.clients i) k)[s.up c]) :=
        List.getElem?_eq_getElem hlt
      have hne : s.server.loop ≠ .dead := fun e =>
        (Server.not_alive_iff s.server).2 e h.loop
      have hframe : ∃ x, Server.step sv s.server
          (.frame c (frameOf ((sentOn (s.clients i) k)[s.up c]))) = some x := by
        simp only [Server.step, halive, if_true, frameOf]
        cases Server.State.proxySend s.server c _ with
        | none => exact ⟨_, rfl⟩
        | some y => exact ⟨y, rfl⟩
      obtain ⟨x, hx⟩ := hframe
      refine .inr ⟨.deliver c, { s with
        server := x, up := fun c' => if c' = c then s.up c + 1 else s.up c' },
        by simp [Label.routine], ?_, fun _ => rfl, rfl, rfl, hL, ?_⟩
      · simp only [System.step, h.owner, hm, hx]
      · unfold mu
        unfold frameOf at hx
        simp only [if_true]
        cases Server.step_Step hx with
        | sendFail _ _ _ hl => exact absurd h.loop hl
        | enqueue =>
          have : (sentOn (s.clients i) k).length - s.up c =
              (sentOn (s.clients i) k).length - (s.up c + 1) + 1 := by omega
          rw [this, List.length_append]
          exact weight_deliver _ _ _ _ _ _ _
    · have hup : s.up c = (sentOn (s.clients i) k).length := by omega
      cases hloop : s.server.loop with
      | dead => exact absurd h.loop ((Server.not_alive_iff s.server).2 hloop)
      | busy c' id call inp =>
        refine .inr ?_
        obtain ⟨x, hx⟩ : ∃ x, Server.step sv s.server .methodDone = some x := by
          simp only [Server.step, hloop]
          split <;> exact ⟨_, rfl⟩
        refine hserver .methodDone x (by simp [Label.routine]) rfl hx ?_
        have hbusy : busyNum s.server = 1 := by unfold busyNum; rw [hloop]
        unfold mu
        rw [hbusy]
        cases Server.step_Step hx with
        | methodOk c'' id' call' i' hl' ha' =>
          obtain ⟨a1, a2⟩ := send_length s.server c c'' none
            (Response.mkMethod id' (sv.runMethod s.server.backend call').2)
          simp only [a2]
          exact weight_done _ _ _ _ _ _ _ a1
        | methodFail c'' id' call' i' hl' ha' =>
          exfalso
          have := h.busy _ _ _ _ hl'
          rw [ha'] at this; cases this
      | idle =>
        have hz : busyNum s.server = 0 := by unfold busyNum; rw [hloop]
        cases hqueue : s.server.queue with
        | cons p q =>
          obtain ⟨c', inp⟩ := p
          refine .inr ?_
          obtain ⟨x, hx⟩ : ∃ x, Server.step sv s.server .take = some x := by
            simp only [Server.step, hloop, hqueue]; exact ⟨_, rfl⟩
          refine hserver .take x (by simp [Label.routine]) rfl hx ?_
          unfold mu
          rw [hz, hqueue, List.length_cons]
          cases Server.step_Step hx with
          | takeErr c'' r q' hl' hq' =>
            rw [hqueue] at hq'; cases hq'
            obtain ⟨a1, a2⟩ := send_length s.server c c' none r
            simp only [a2]
            have : busyNum { s.server with
                queue := q,
                conns := Server.upd s.server.conns c' ((s.server.conns c').send none r).1,
                log := s.server.log ++ [(c', .error r)] } = 0 := by
              unfold busyNum; simp only [hloop]
            rw [this]
            exact weight_reply _ _ _ _ _ _ _ _ a1
          | cancelHit c'' id t q' hl' hq' ht =>
            rw [hqueue] at hq'; cases hq'
            have : busyNum { s.server with
                queue := q, tasks := Server.upd s.server.tasks t (s.server.tasks t).abort,
                subs := Server.subsRemove s.server.subs id,
                log := s.server.log ++ [(c', .ok (.cancelStream id))] } = 0 := by
              unfold busyNum; simp only [hloop]
            rw [this]
            exact weight_reply _ _ _ _ _ _ _ _ (Nat.le_succ _)
          | cancelMiss c'' id q' hl' hq' ht =>
            rw [hqueue] at hq'; cases hq'
            have : busyNum { s.server with
                queue := q, log := s.server.log ++ [(c', .ok (.cancelStream id))] } = 0 := by
              unfold busyNum; simp only [hloop]
            rw [this]
            exact weight_reply _ _ _ _ _ _ _ _ (Nat.le_succ _)
          | takeBad c'' id v e q' hl' hq' hd =>
            rw [hqueue] at hq'; cases hq'
            obtain ⟨a1, a2⟩ := send_length s.server c c' none (Response.mkError (some id) e)
            simp only [a2]
            have : busyNum { s.server with
                queue := q,
                conns := Server.upd s.server.conns c'
                  ((s.server.conns c').send none (Response.mkError (some id) e)).1,
                log := s.server.log ++ [(c', .ok (.exec id v))] } = 0 := by
              unfold busyNum; simp only [hloop]
            rw [this]
            exact weight_reply _ _ _ _ _ _ _ _ a1
          | takeStream c'' id v call q' hl' hq' hd hs =>
            rw [hqueue] at hq'; cases hq'
            have : busyNum { s.server with
                queue := q
                backend := (sv.runStream s.server.backend call).1
                tasks := Server.upd s.server.tasks s.server.ntask
                  { conn := c', id := id, src := (sv.runStream s.server.backend call).2, pos := 0,
                    st := .suspended }
                ntask := s.server.ntask + 1
                subs := Server.subsInsert s.server.subs id s.server.ntask
                log := s.server.log ++ [(c', .ok (.exec id v))] } = 0 := by
              unfold busyNum; simp only [hloop]
            rw [this]
            exact weight_reply _ _ _ _ _ _ _ _ (Nat.le_succ _)
          | takeMethod c'' id v call q' hl' hq' hd hs =>
            rw [hqueue] at hq'; cases hq'
            exact weight_busy _ _ _ _ _ _
        | nil =>
          cases hchan : (s.server.conns c).chan with
          | cons r rs =>
            refine .inr ?_
            obtain ⟨x, hx⟩ : ∃ x, Server.step sv s.server (.flush c) = some x := by
              simp only [Server.step, halive, if_true, hchan]; exact ⟨_, rfl⟩
            refine hserver (.flush c) x (by simp [Label.routine]) rfl hx ?_
            have hdle := (inv_down hr c i k h.owner).le
            cases Server.step_Step hx with
            | flush _ r' rs' ha' hc' =>
              rw [hchan] at hc'; cases hc'
              unfold mu
              simp only [Server.upd_self, hchan, List.length_cons, List.length_append,
                List.length_nil]
              have : (s.server.conns c).written.length + (0 + 1) - s.down c =
                  (s.server.conns c).written.length - s.down c + 1 := by omega
              rw [this]
              exact weight_flush _ _ _ _ _ _ _
          | nil =>
            have hdle := (inv_down hr c i k h.owner).le
            rcases Nat.lt_or_ge (s.down c) (s.server.conns c).written.length with hd | hd
            · refine .inr ?_
              have hw : (s.server.conns c).written[s.down c]? =
                  some ((s.server.conns c).written[s.down c]) := List.getElem?_eq_getElem hd
              have hy : ∃ y, Client.step (s.clients i)
                  (.message k (incoming ((s.server.conns c).written[s.down c]))) = some y ∧
                  y.calls = (s.clients i).calls ∧ y.sent = (s.clients i).sent ∧
                  y.live = (s.clients i).live ∧ visitsLeft y ≤ (s.clients i).live.length + 1 := by
                have hrcv : ∀ id d, visitsLeft ((s.clients i).receive id d) ≤
                    (s.clients i).live.length + 1 := by
                  intro id d
                  simp only [visitsLeft, Client.State.receive]
                  have := List.length_filter_le (fun x => decide (0 ≤ x)) (s.clients i).live
                  omega
                simp only [Client.step, hp, hopen]
                cases (s.server.conns c).written[s.down c] with
                | method id d => exact ⟨_, rfl, rfl, rfl, rfl, hrcv id d⟩
                | stream id d => exact ⟨_, rfl, rfl, rfl, rfl, hrcv id d⟩
                | error id e => exact ⟨_, rfl, rfl, rfl, rfl, by rw [hv]; omega⟩
              obtain ⟨y, hy, h1, h2, h3, h4⟩ := hy
              refine ⟨.respond c, { s.setClient i y with
                down := fun c' => if c' = c then s.down c + 1 else s.down c' },
                by simp [Label.routine], ?_, ?_, rfl, ?_, ?_, ?_⟩
              · simp only [System.step, h.owner, hw, hy]
              · intro i'
                show ((s.setClient i y).clients i').calls = _
                by_cases e : i' = i
                · subst e; rw [setClient_self]; exact h1
                · rw [setClient_ne _ _ e]
              · show ((s.setClient i y).clients i).sent = _
                rw [setClient_self]; exact h2
              · show ((s.setClient i y).clients i).live.length ≤ L
                rw [setClient_self, h3]; exact hL
              · show weight L ((sentOn ((s.setClient i y).clients i) k).length - s.up c) _
                  (busyNum s.server) _ ((s.server.conns c).written.length -
                    (if c = c then s.down c + 1 else s.down c))
                  (visitsLeft ((s.setClient i y).clients i)) < mu L s i c k
                rw [setClient_self, if_pos rfl]
                unfold mu sentOn
                rw [h2, hv]
                have : (s.server.conns c).written.length - s.down c =
                  (s.server.conns c).written.length - (s.down c + 1) + 1 := by omega
                rw [this]
                exact weight_respond _ _ _ _ _ _ _ (by omega)
            · refine .inl ⟨halive, ?_, hloop, hqueue, hchan, by omega, hp⟩
              intro k' ho'
              rw [h.owner] at ho'; cases ho'
              exact hup

/-- One routine step. -/
theorem Going.next {sv : Service σ C} {b : σ} {ls : List Label} {i j c k : Nat} {msg : Client.Msg}
    {s : State σ C} (h : Going sv b ls i j c k msg s) {L : Nat}
    (hL : (s.clients i).live.length ≤ L)
    (hg : ((s.clients i).subs j).got = []) :
    ((s.server.conns c).alive = true ∧ Quiet s i c) ∨
    ∃ l s', Label.routine i c l ∧ System.step sv s l = some s' ∧
      (∀ i, (s'.clients i).calls = (s.clients i).calls) ∧ s'.owner = s.owner ∧
      (s'.clients i).sent = (s.clients i).sent ∧ (s'.clients i).live.length ≤ L ∧
      mu L s' i c k < mu L s i c k := by
  have hr : Reachable sv b s := ⟨ls, h.run⟩
  have hrc := hr.client i
  have hC := calm_server h.run h.calm h.ok h.calls
  have hS := calm_strict h.run h.calm hC.alive
  have hu : ((s.clients i).subs j).until_ = none := by
    cases hu : ((s.clients i).subs j).until_ with
    | none => rfl
    | some n =>
      exact absurd hg ((Client.inv_live hrc).kept j h.made.lt h.made.kind (by rw [hu]; simp))
  have hopen := calm_protected h.run hS i (h.calls i) j h.made.lt h.made.kind hu k msg
    (sentOn_sent.1 h.sent) h.made.id.symm
  have halive := calm_alive h.run hS hC.alive c i k h.owner (.inr hopen)
  refine Fit.next ⟨hr, h.owner, hC.alive, hopen, halive, ?_⟩ hL
  intro c'' id' call' i' hl'
  have hlt : c'' < s.server.nconn := by
    have hq := (Server.inv_queue hr.server).1 hC.alive
    refine (Server.inv_fresh hr.server).1 (c'', i') ?_
    rw [hq]; unfold inflight; rw [hl']; simp
  cases ho : s.owner c'' with
  | none => exact absurd ho (hC.owned c'' hlt)
  | some ik =>
    obtain ⟨i', k'⟩ := ik
    exact busy_alive h.run hS ho (h.calls i') (hC.asked i') hl'

/-- A transmitted request can be brought to its end. -/
theorem drive {sv : Service σ C} {b : σ} {i j c k : Nat} {msg : Client.Msg} {L : Nat} :
    ∀ (n : Nat) (s : State σ C) (ls : List Label), mu L s i c k ≤ n →
      (s.clients i).live.length ≤ L → Going sv b ls i j c k msg s →
      ∃ ls' s', run sv s ls' = some s' ∧ (∀ l ∈ ls', Label.routine i c l) ∧
        (∀ i, (s'.clients i).calls = (s.clients i).calls) ∧
        ∃ l₁ l₂, s'.server.log = l₁ ++ (c, requestOf msg.id msg.ns msg.method msg.args) :: l₂ ∧
          ∀ d, Returns sv (replay sv b l₁) (requestOf msg.id msg.ns msg.method msg.args) d →
            ((s'.clients i).subs j).got = [d] := by
  intro n
  induction n with
  | zero =>
    intro s ls hmu hL h
    by_cases hg : ((s.clients i).subs j).got = []
    · rcases h.next hL hg with ⟨ha, hq⟩ | ⟨l, s', _, _, _, _, _, _, hlt⟩
      · exact ⟨[], s, rfl, by simp, fun _ => rfl,
          h.made.quiet (h.calls i) h.owner h.sent hq (fun _ => ha)⟩
      · omega
    · exact ⟨[], s, rfl, by simp, fun _ => rfl, h.made.resolved (h.calls i) h.owner h.sent hg⟩
  | succ n ih =>
    intro s ls hmu hL h
    by_cases hg : ((s.clients i).subs j).got = []
    · rcases h.next hL hg with ⟨ha, hq⟩ | ⟨l, s', h1, h2, h3, h4, h5, h6, hlt⟩
      · exact ⟨[], s, rfl, by simp, fun _ => rfl,
          h.made.quiet (h.calls i) h.owner h.sent hq (fun _ => ha)⟩
      · obtain ⟨ls', s'', a1, a2, a3, a4⟩ := ih s' (ls ++ [l]) (by omega) h6 (h.after h2 h1 h3 h4 h5)
        refine ⟨l :: ls', s'', by simp only [run, h2]; exact a1, ?_, fun i => (a3 i).trans (h3 i), a4⟩
        intro l' hl'
        rcases List.mem_cons.1 hl' with rfl | hl'
        · exact h1
        · exact a2 l' hl'
    · exact ⟨[], s, rfl, by simp, fun _ => rfl, h.made.resolved (h.calls i) h.owner h.sent hg⟩

end Verif.System
