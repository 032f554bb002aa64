import Verif.System.Drive
import Verif.Spec.Fair

/-!
# Fair executions of the composed system (proof helpers)
-/

namespace Verif.System
open Verif Verif.ServerSpec Verif.SystemSpec

variable {σ C : Type}

/-! ## Executions and their histories -/

/-- What has happened before moment `n`. -/
def labelsTo (lab : Nat → Option Label) : Nat → List Label
  | 0 => []
  | n + 1 => labelsTo lab n ++ (lab n).toList

theorem mem_labelsTo {lab : Nat → Option Label} {n : Nat} {l : Label} (h : l ∈ labelsTo lab n) :
    ∃ m, m < n ∧ lab m = some l := by
  induction n with
  | zero => cases h
  | succ n ih =>
    simp only [labelsTo, List.mem_append, Option.mem_toList] at h
    rcases h with h | h
    · obtain ⟨m, h1, h2⟩ := ih h; exact ⟨m, by omega, h2⟩
    · exact ⟨n, by omega, by simpa using h⟩

theorem _root_.Verif.SystemSpec.Execution.run {sv : Service σ C} {b : σ} {st : Nat → State σ C} {lab : Nat → Option Label}
    (h : Execution sv b st lab) (n : Nat) : run sv (init b) (labelsTo lab n) = some (st n) := by
  induction n with
  | zero => rw [h.start]; rfl
  | succ n ih =>
    rcases h.next n with ⟨h1, h2⟩ | ⟨l, h1, h2⟩
    · simp only [labelsTo, h1, Option.toList, List.append_nil]; rw [h2]; exact ih
    · simp only [labelsTo, h1, Option.toList]; exact run_snoc ih h2

theorem _root_.Verif.SystemSpec.Execution.reach {sv : Service σ C} {b : σ} {st : Nat → State σ C} {lab : Nat → Option Label}
    (h : Execution sv b st lab) (n : Nat) : Reachable sv b (st n) := ⟨_, h.run n⟩

theorem _root_.Verif.SystemSpec.Execution.step {sv : Service σ C} {b : σ} {st : Nat → State σ C} {lab : Nat → Option Label}
    (h : Execution sv b st lab) {n : Nat} {l : Label} (hl : lab n = some l) :
    step sv (st n) l = some (st (n + 1)) := by
  rcases h.next n with ⟨h1, _⟩ | ⟨l', h1, h2⟩
  · rw [hl] at h1; cases h1
  · rw [hl] at h1; cases h1; exact h2

/-- From one moment to a later one. -/
theorem _root_.Verif.SystemSpec.Execution.later {sv : Service σ C} {b : σ} {st : Nat → State σ C} {lab : Nat → Option Label}
    (h : Execution sv b st lab) {n m : Nat} (hm : n ≤ m) :
    ∃ ls, System.run sv (st n) ls = some (st m) := by
  induction m with
  | zero =>
    have : n = 0 := by omega
    subst this
    exact ⟨[], rfl⟩
  | succ m ih =>
    by_cases e : n = m + 1
    · subst e; exact ⟨[], rfl⟩
    · obtain ⟨ls, hls⟩ := ih (by omega)
      rcases h.next m with ⟨_, h2⟩ | ⟨l, _, h2⟩
      · exact ⟨ls, by rw [h2]; exact hls⟩
      · exact ⟨ls ++ [l], run_snoc hls h2⟩

/-- Failure-free executions. -/
structure Good (sv : Service σ C) (b : σ) (st : Nat → State σ C) (lab : Nat → Option Label) :
    Prop where
  ex : Execution sv b st lab
  peace : Peaceful sv st lab
  calm : CalmForever st lab

theorem Calm_snoc' {sv : Service σ C} {l : Label} (hf : l.isFailure = false) :
    ∀ (ls : List Label) (s s' : State σ C), Calm sv s ls → run sv s ls = some s' →
    (∀ i k, l = .endDown i k → ∀ k', (s'.clients i).socket = some k' → k' = k) →
    Calm sv s (ls ++ [l]) := by
  intro ls
  induction ls with
  | nil =>
    intro s s' _ hr he
    simp only [run, Option.some.injEq] at hr
    subst hr
    exact ⟨hf, he, fun _ _ => trivial⟩
  | cons l' ls ih =>
    intro s s' h hr he
    refine ⟨h.1, h.2.1, fun s1 hs => ih s1 s' (h.2.2 s1 hs) ?_ he⟩
    simp only [run, hs] at hr
    exact hr

theorem Good.calmTo {sv : Service σ C} {b : σ} {st : Nat → State σ C} {lab : Nat → Option Label}
    (h : Good sv b st lab) (n : Nat) : Calm sv (init b) (labelsTo lab n) := by
  induction n with
  | zero => trivial
  | succ n ih =>
    cases hl : lab n with
    | none => simp only [labelsTo, hl, Option.toList, List.append_nil]; exact ih
    | some l =>
      simp only [labelsTo, hl, Option.toList]
      refine Calm_snoc' (h.peace.labels n l hl).1 _ _ _ ih (h.ex.run n) ?_
      rintro i k rfl
      exact h.calm n i k hl

theorem Good.ok {sv : Service σ C} {b : σ} {st : Nat → State σ C} {lab : Nat → Option Label}
    (h : Good sv b st lab) (n : Nat) :
    ∀ l ∈ labelsTo lab n, Label.harmless l = true ∧ Label.generated sv l := by
  intro l hl
  obtain ⟨m, _, hm⟩ := mem_labelsTo hl
  exact (h.peace.labels m l hm).2

theorem Good.inv {sv : Service σ C} {b : σ} {st : Nat → State σ C} {lab : Nat → Option Label}
    (h : Good sv b st lab) (n : Nat) : InvCalm sv (st n) :=
  calm_server (h.ex.run n) (h.calmTo n) (h.ok n) (h.peace.calls n)

theorem Good.strictTo {sv : Service σ C} {b : σ} {st : Nat → State σ C} {lab : Nat → Option Label}
    (h : Good sv b st lab) (n : Nat) : CalmS sv (init b) (labelsTo lab n) :=
  calm_strict (h.ex.run n) (h.calmTo n) (h.inv n).alive

theorem Good.closed {sv : Service σ C} {b : σ} {st : Nat → State σ C} {lab : Nat → Option Label}
    (h : Good sv b st lab) {n : Nat} {l : Label} {s' : State σ C} (hl : lab n = some l)
    (hs : step sv (st n) l = some s') :
    Still (st n) l :=
  close_event (h.ex.run n) (h.strictTo n) (h.inv n).alive hs
    (by rintro i k rfl; exact h.calm n i k hl)

theorem Good.socket {sv : Service σ C} {b : σ} {st : Nat → State σ C} {lab : Nat → Option Label}
    (h : Good sv b st lab) {n i k : Nat} (hs : ((st n).clients i).socket = some k) :
    (((st n).clients i).socks k).Live :=
  calm_socket (h.ex.run n) (h.strictTo n) i k hs

/-! ## What grows -/

theorem _root_.Verif.SystemSpec.Execution.mono {sv : Service σ C} {b : σ} {st : Nat → State σ C}
    {lab : Nat → Option Label} (h : Execution sv b st lab) {f : State σ C → Nat}
    (hf : ∀ s l s', Reachable sv b s → System.step sv s l = some s' → f s ≤ f s') (n : Nat) :
    f (st n) ≤ f (st (n + 1)) := by
  rcases h.next n with ⟨_, h2⟩ | ⟨l, _, h2⟩
  · rw [h2]; exact Nat.le_refl _
  · exact hf _ _ _ (h.reach n) h2

theorem _root_.Verif.SystemSpec.Execution.grows {sv : Service σ C} {b : σ} {st : Nat → State σ C}
    {lab : Nat → Option Label} (h : Execution sv b st lab) {α : Type} {f : State σ C → List α}
    (hf : ∀ s l s', Reachable sv b s → System.step sv s l = some s' → f s <+: f s') {n m : Nat}
    (hm : n ≤ m) : f (st n) <+: f (st m) := by
  induction m with
  | zero =>
    have : n = 0 := by omega
    subst this
    exact List.prefix_refl _
  | succ m ih =>
    by_cases e : n = m + 1
    · subst e; exact List.prefix_refl _
    · refine (ih (by omega)).trans ?_
      rcases h.next m with ⟨_, h2⟩ | ⟨l, _, h2⟩
      · rw [h2]; exact List.prefix_refl _
      · exact hf _ _ _ (h.reach m) h2

theorem mono_le {f : Nat → Nat} {n : Nat} (h : ∀ m, n ≤ m → f m ≤ f (m + 1)) {m m' : Nat}
    (hn : n ≤ m) (hm : m ≤ m') : f m ≤ f m' := by
  induction m' with
  | zero =>
    have : m = 0 := by omega
    subst this
    exact Nat.le_refl _
  | succ m' ih =>
    by_cases e : m = m' + 1
    · subst e; exact Nat.le_refl _
    · exact Nat.le_trans (ih (by omega)) (h m' (by omega))

/-- A number that grows whenever it is below the target reaches the target. -/
theorem climb {f : Nat → Nat} {n T : Nat}
    (hinc : ∀ m, n ≤ m → f m < T → ∃ m', m ≤ m' ∧ f m < f m') : ∃ m, n ≤ m ∧ T ≤ f m := by
  have key : ∀ (d m : Nat), n ≤ m → T ≤ f m + d → ∃ m', m ≤ m' ∧ T ≤ f m' := by
    intro d
    induction d with
    | zero => intro m _ h; exact ⟨m, Nat.le_refl _, by omega⟩
    | succ d ih =>
      intro m hn h
      by_cases hlt : f m < T
      · obtain ⟨m', h1, h2⟩ := hinc m hn hlt
        obtain ⟨m'', h3, h4⟩ := ih m' (by omega) (by omega)
        exact ⟨m'', by omega, h4⟩
      · exact ⟨m, Nat.le_refl _, by omega⟩
  exact key T n (Nat.le_refl _) (by omega)

/-- Below the target some weakly fair label, depending on the number only, makes it grow. -/
theorem climb_weak {sv : Service σ C} {st : Nat → State σ C} {lab : Nat → Option Label}
    {f : Nat → Nat} {n T : Nat} (hmono : ∀ m, n ≤ m → f m ≤ f (m + 1)) (L : Nat → Label)
    (hfair : ∀ v, v < T → WeaklyFair sv st lab (L v))
    (hen : ∀ m, n ≤ m → f m < T → Enabled sv (st m) (L (f m)))
    (hdo : ∀ m, n ≤ m → f m < T → lab m = some (L (f m)) → f m < f (m + 1)) :
    ∃ m, n ≤ m ∧ T ≤ f m := by
  refine climb ?_
  intro m hm hlt
  apply Classical.byContradiction
  intro hno
  have hconst : ∀ m', m ≤ m' → f m' = f m := by
    intro m' hm'
    have h1 := mono_le hmono hm hm'
    apply Classical.byContradiction
    intro hne
    exact hno ⟨m', hm', by omega⟩
  obtain ⟨m', h1, h2⟩ := hfair (f m) hlt m (fun m' hm' => by
    have := hen m' (by omega) (by rw [hconst m' hm']; exact hlt)
    rw [hconst m' hm'] at this
    exact this)
  have h3 := hconst m' h1
  have h4 := hdo m' (by omega) (by omega) (by rw [h3]; exact h2)
  have h5 := hconst (m' + 1) (by omega)
  omega

theorem climb_strong {sv : Service σ C} {st : Nat → State σ C} {lab : Nat → Option Label}
    {f : Nat → Nat} {n T : Nat} {L : Label} (hmono : ∀ m, n ≤ m → f m ≤ f (m + 1))
    (hfair : StronglyFair sv st lab L)
    (hen : ∀ m, n ≤ m → (∀ m', m ≤ m' → f m' < T) → ∃ m', m ≤ m' ∧ Enabled sv (st m') L)
    (hdo : ∀ m, n ≤ m → f m < T → lab m = some L → f m < f (m + 1)) :
    ∃ m, n ≤ m ∧ T ≤ f m := by
  refine climb ?_
  intro m hm hlt
  apply Classical.byContradiction
  intro hno
  have hconst : ∀ m', m ≤ m' → f m' = f m := by
    intro m' hm'
    have h1 := mono_le hmono hm hm'
    apply Classical.byContradiction
    intro hne
    exact hno ⟨m', hm', by omega⟩
  obtain ⟨m', h1, h2⟩ := hfair m (fun m' hm' => hen m' (by omega) (fun m'' h'' => by
    rw [hconst m'' (by omega)]; exact hlt))
  have h3 := hconst m' h1
  have h4 := hdo m' (by omega) (by omega) h2
  have h5 := hconst (m' + 1) (by omega)
  omega

/-! ## Steps of the server -/

theorem server_log {sv : Service σ C} {x y : Server.State σ C} {l : Server.Label}
    (h : Server.step sv x l = some y) : x.log <+: y.log := by
  cases Server.step_Step h <;> first
    | exact List.prefix_refl _
    | exact List.prefix_append _ _

theorem server_accepted {sv : Service σ C} {x y : Server.State σ C} {l : Server.Label}
    (h : Server.step sv x l = some y) : x.accepted <+: y.accepted := by
  cases Server.step_Step h <;> first
    | exact List.prefix_refl _
    | exact List.prefix_append _ _

theorem server_produced {sv : Service σ C} {b : σ} {x y : Server.State σ C} {l : Server.Label}
    (hr : Server.Reachable sv b x) (h : Server.step sv x l = some y) (c : Nat) :
    (x.conns c).produced <+: (y.conns c).produced := by
  have hset : ∀ c0 z, (x.conns c0).produced <+: z.produced →
      (x.conns c).produced <+: (Server.upd x.conns c0 z c).produced := by
    intro c0 z hz
    by_cases e : c = c0
    · subst e; rw [Server.upd_self]; exact hz
    · rw [Server.upd_ne _ _ e]; exact List.prefix_refl _
  have hsend : ∀ c0 f r, (x.conns c0).produced <+: ((x.conns c0).send f r).1.produced := by
    intro c0 f r
    unfold Server.Conn.send
    split
    · exact List.prefix_append _ _
    · exact List.prefix_refl _
  cases Server.step_Step h <;> first
    | exact List.prefix_refl _
    | exact hset _ _ (hsend _ _ _)
    | exact hset _ _ (List.prefix_refl _)
    | skip
  · refine hset _ _ ?_
    rw [(Server.inv_fresh hr).2.1 _ (Nat.le_refl _)]
    exact List.prefix_refl _

/-- How far the loop has come. -/
def progress (x : Server.State σ C) : Nat := 2 * x.log.length + busyNum x

theorem server_progress {sv : Service σ C} {x y : Server.State σ C} {l : Server.Label}
    (h : Server.step sv x l = some y) (hl : l ≠ .methodPanic) : progress x ≤ progress y := by
  have hle : ∀ z : Server.State σ C, busyNum z ≤ 1 := by
    intro z; unfold busyNum; split <;> omega
  cases Server.step_Step h with
  | methodPanic => exact absurd rfl hl
  | takePanic c id v call q hl' =>
    simp [progress, busyNum, hl', Server.State.killLoop, Server.State.dropSubs]
  | loopExit hl' =>
    simp [progress, busyNum, hl', Server.State.killLoop, Server.State.dropSubs]
  | methodFail c id call i hl' =>
    simp [progress, busyNum, hl', Server.State.killLoop, Server.State.dropSubs]; omega
  | methodOk c id call i hl' => simp [progress, busyNum, hl']; omega
  | takeMethod c id v call q hl' => simp [progress, busyNum, hl']
  | takeErr c r q hl' => simp [progress, busyNum, hl']; omega
  | cancelHit c id t q hl' => simp [progress, busyNum, hl']; omega
  | cancelMiss c id q hl' => simp [progress, busyNum, hl']; omega
  | takeBad c id v e q hl' => simp [progress, busyNum, hl']; omega
  | takeStream c id v call q hl' => simp [progress, busyNum, hl']; omega
  | _ => exact Nat.le_refl _

theorem take_progress {sv : Service σ C} {x y : Server.State σ C}
    (h : Server.step sv x .take = some y) : progress x < progress y := by
  cases Server.step_Step h with
  | takeMethod c id v call q hl' => simp [progress, busyNum, hl']
  | takeErr c r q hl' => simp [progress, busyNum, hl']
  | cancelHit c id t q hl' => simp [progress, busyNum, hl']
  | cancelMiss c id q hl' => simp [progress, busyNum, hl']
  | takeBad c id v e q hl' => simp [progress, busyNum, hl']
  | takeStream c id v call q hl' => simp [progress, busyNum, hl']

theorem done_progress {sv : Service σ C} {x y : Server.State σ C}
    (h : Server.step sv x .methodDone = some y) : progress x < progress y := by
  cases Server.step_Step h with
  | methodFail c id call i hl' =>
    simp [progress, busyNum, hl', Server.State.killLoop, Server.State.dropSubs]; omega
  | methodOk c id call i hl' => simp [progress, busyNum, hl']; omega

/-! ## Steps of a client that keeps a subscription -/

section
open Client

/-- As long as a subscription stays, the socket stays, and what waits for it waits or is sent. -/
theorem client_keeps {x y : Client.State} {l : Client.Label} (hr : Client.Reachable x)
    (h : Client.step x l = some y) {k j : Nat} (hs : x.socket = some k) (hj : j ∈ x.live)
    (hj' : j ∈ y.live) (hcl : ∀ k f, l = .closed k f → x.socket = none)
    (hcg : ∀ k, l ≠ .closing k) (hlive : (x.socks k).Live) :
    y.socket = some k ∧ ∀ m ∈ (x.socks k).waiting, m ∈ (y.socks k).waiting ∨ (k, m) ∈ y.sent := by
  have hc := inv_conn hr
  have hcy := inv_conn (hr.step h)
  have hu := ((inv_live (hr.step h)).mem j).1 hj'
  suffices hgoal : (y.socks k).Live ∧
      ∀ m ∈ (x.socks k).waiting, m ∈ (y.socks k).waiting ∨ (k, m) ∈ y.sent from
    ⟨(hcy.live k).1 hgoal.1, hgoal.2⟩
  have hsame : y.socks = x.socks → (y.socks k).Live ∧
      ∀ m ∈ (x.socks k).waiting, m ∈ (y.socks k).waiting ∨ (k, m) ∈ y.sent := by
    intro e; rw [e]; exact ⟨hlive, fun m hm => .inl hm⟩
  have hos : ∀ (z : Client.State) m0, z.socks = x.socks → z.socket = x.socket → z.openP = x.openP →
      y = z.openAndSend m0 → (y.socks k).Live ∧
      ∀ m ∈ (x.socks k).waiting, m ∈ (y.socks k).waiting ∨ (k, m) ∈ y.sent := by
    intro z m0 h1 h2 h3 e
    cases hrd : z.ready with
    | some k' => exact hsame (by rw [e, openAndSend_ready hrd]; exact h1)
    | none =>
      have hconn : (x.socks k).st = .connecting := by
        rcases hlive with hlive | hlive
        · exact hlive
        · exfalso
          simp [State.ready, h2, hs, h1, hlive] at hrd
      have hp := hc.conn k hconn
      have : y = { z with
          timer := none
          socks := upd z.socks k { z.socks k with waiting := (z.socks k).waiting ++ [m0] } } := by
        rw [e]
        simp [State.openAndSend, hrd, State.open_, h3, hp]
      rw [this]
      simp only [upd_self, h1]
      exact ⟨.inl hconn, fun m hm => .inl (by simp [hm])⟩
  have hcall : ∀ j id data, ((x.call j id data).1).socks = x.socks := by
    intro j id data; unfold State.call; split
    · split
      · rfl
      · split <;> rfl
    · rfl
  cases step_Step h with
  | request ns m a =>
    exact hos ((x.issue (x.newMsg ns m a)).addSub .request (x.newMsg ns m a).id) _ rfl rfl rfl rfl
  | subscribe ns m a =>
    exact hos { x.issue (x.newMsg ns m a) with stores := x.stores ++ [(x.newMsg ns m a).id] } _
      rfl rfl rfl rfl
  | attach id h => exact hsame rfl
  | detach j0 hj0 hk0 =>
    refine hsame ?_
    have hmem : j ∈ x.live.filter (· != j0) := by
      rw [State.unsubscribe_live] at hj'; exact hj'
    unfold State.unsubscribe
    simp only
    split
    · rename_i h0; rw [h0] at hmem; cases hmem
    · rfl
  | opened k0 hp hk0 =>
    have : x.socket = some k0 := (hc.live k0).1 (.inl hk0)
    rw [hs] at this
    cases this
    rw [foldl_openAndSend_ready (onOpen_ready hc hk0)]
    refine ⟨.inr ?_, fun m hm => .inr ?_⟩
    · simp [State.onOpen]
    · simp [hm]
  | failed k0 hp h0 => have := hcl k0 true rfl; rw [hs] at this; cases this
  | clean k0 hp h0 hw => have := hcl k0 false rfl; rw [hs] at this; cases this
  | closing k0 => exact absurd rfl (hcg k0)
  | method => exact hsame rfl
  | stream => exact hsame rfl
  | error => exact hsame rfl
  | garbage => exact hsame rfl
  | visitEnd id data cursor settled hp hn =>
    exact hsame (finish_keeps settled { x with phase := .idle } j hj hu.2)
  | visit id data cursor settled j0 hp hn => exact hsame (hcall _ _ _)
  | visitThrow id data cursor settled j0 hp hn hid hk =>
    refine hsame ((finish_keeps settled { (x.call j0 id data).1 with phase := .idle, threw := true } j
      ?_ hu.2).trans (hcall _ _ _))
    simpa using hj
  | timer d hp ht =>
    have := hc.timer (by rw [ht]; simp)
    rw [hs] at this; cases this

/-- Where the message of a call goes. -/
theorem openAndSend_goes {z : Client.State} (hz : InvConn z)
    (hl : ∀ k, z.socket = some k → (z.socks k).Live) {m : Msg} {k : Nat}
    (hs : (z.openAndSend m).socket = some k) :
    (k, m) ∈ (z.openAndSend m).sent ∨ m ∈ ((z.openAndSend m).socks k).waiting := by
  cases hrd : z.ready with
  | some k' =>
    rw [openAndSend_ready hrd] at hs ⊢
    left
    have : z.socket = some k' := by
      unfold State.ready at hrd
      split at hrd
      · split at hrd
        · cases hrd; assumption
        · cases hrd
      · cases hrd
    have hs : z.socket = some k := hs
    rw [this] at hs; cases hs
    simp
  | none =>
    right
    cases hp : z.openP with
    | some k' =>
      have e : z.openAndSend m = { z with
          timer := none
          socks := upd z.socks k' { z.socks k' with waiting := (z.socks k').waiting ++ [m] } } := by
        simp [State.openAndSend, hrd, State.open_, hp]
      rw [e] at hs ⊢
      have hs : z.socket = some k := hs
      have hlive := hl k hs
      have hconn : (z.socks k).st = .connecting := by
        rcases hlive with hlive | hlive
        · exact hlive
        · exfalso; simp [State.ready, hs, hlive] at hrd
      have := hz.conn k hconn
      rw [hp] at this; cases this
      simp
    | none =>
      have e : z.openAndSend m = { z with
          timer := none
          socks := upd (upd z.socks z.nsock { st := .connecting, wasOpen := false, waiting := [] })
            z.nsock { st := .connecting, wasOpen := false, waiting := [m] }
          nsock := z.nsock + 1
          socket := some z.nsock
          openP := some z.nsock } := by
        simp [State.openAndSend, hrd, State.open_, hp]
      rw [e] at hs ⊢
      have hs : some z.nsock = some k := hs
      cases hs
      simp

end

end Verif.System
