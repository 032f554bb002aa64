import Verif.System.FairCall
import Verif.System.Concrete

/-!
# Fair executions: deliveries end, streams flow (proof helpers)
-/

namespace Verif.System
open Verif Verif.ServerSpec Verif.SystemSpec

variable {σ C : Type} {sv : Service σ C} {b : σ} {st : Nat → State σ C} {lab : Nat → Option Label}

/-! ## Stream tasks -/

/-- The task goes on, or has reached the end of its stream. -/
def TaskOk (t : Server.Task) : Prop :=
  t.st = .suspended ∨ t.st = .running ∨ (t.st = .done ∧ t.src t.pos = none)

theorem task_ok {x y : Server.State σ C} {l : Server.Label} (hr : Server.Reachable sv b x)
    (h : Server.step sv x l = some y) {t : Nat} (hl : LoopAlive y) (hp : l ≠ .itemPanic t)
    (hq : ∀ c id, (c, (.ok (.cancelStream id) : Server.Input)) ∉ x.queue) (ht : t < y.ntask)
    (ha : (y.conns (y.tasks t).conn).alive = true)
    (ih : t < x.ntask → (x.conns (x.tasks t).conn).alive = true → TaskOk (x.tasks t)) :
    TaskOk (y.tasks t) := by
  have hback : t < x.ntask → (y.conns (x.tasks t).conn).alive = true → TaskOk (x.tasks t) := by
    intro ht ha
    refine ih ht ?_
    cases hd : (x.conns (x.tasks t).conn).alive with
    | true => rfl
    | false =>
      rw [server_frozen h ((Server.inv_fresh hr).2.2.1 t ht) hd, hd] at ha; cases ha
  have hkill : ∀ z : Server.State σ C, y = z.killLoop → False := by
    rintro z rfl; exact absurd hl (by simp [LoopAlive])
  have hst := Server.step_Step h
  clear h
  cases hst with
  | cancelHit c id t' q hl' hq' => exact absurd (by rw [hq']; simp) (hq c id)
  | takeStream c id v call q hl' hq' hd hs =>
    simp only at ha ht ⊢
    by_cases e : t = x.ntask
    · subst e; rw [Server.upd_self]; exact .inl rfl
    · rw [Server.upd_ne _ _ e] at ha ⊢
      exact hback (by omega) ha
  | takePanic => exact (hkill _ rfl).elim
  | methodFail => exact (hkill _ rfl).elim
  | methodPanic => exact (hkill _ rfl).elim
  | loopExit => exact (hkill _ rfl).elim
  | poll t' h =>
    simp only at ha ht ⊢
    by_cases e : t = t'
    · subst e; rw [Server.upd_self]; exact .inr (.inl rfl)
    · rw [Server.upd_ne _ _ e] at ha ⊢; exact hback ht ha
  | itemEnd t' h hn =>
    simp only at ha ht ⊢
    by_cases e : t = t'
    · subst e; rw [Server.upd_self]; exact .inr (.inr ⟨rfl, hn⟩)
    · rw [Server.upd_ne _ _ e] at ha ⊢; exact hback ht ha
  | itemSend t' v h hn hal =>
    simp only at ha ht hback ⊢
    by_cases e : t = t'
    · subst e
      rw [Server.upd_self] at ha ⊢
      rcases hback ht ha with h' | h' | ⟨h', _⟩
      · rw [h'] at h; simp at h
      · exact .inr (.inl h')
      · rw [h'] at h; simp at h
    · rw [Server.upd_ne _ _ e] at ha ⊢; exact hback ht ha
  | itemFail t' v h hn hal =>
    simp only at ha ht hback ⊢
    by_cases e : t = t'
    · subst e
      rw [Server.upd_self] at ha
      rw [hal] at ha; cases ha
    · rw [Server.upd_ne _ _ e] at ha ⊢; exact hback ht ha
  | itemPanic t' h =>
    simp only at ha ht ⊢
    have e : t ≠ t' := by rintro rfl; exact hp rfl
    rw [Server.upd_ne _ _ e] at ha ⊢; exact hback ht ha
  | pending t' h =>
    simp only at ha ht ⊢
    by_cases e : t = t'
    · subst e; rw [Server.upd_self]; exact .inl rfl
    · rw [Server.upd_ne _ _ e] at ha ⊢; exact hback ht ha
  | pendingAborted t' h =>
    simp only at ha ht hback ⊢
    by_cases e : t = t'
    · subst e
      rw [Server.upd_self] at ha
      rcases hback ht ha with h' | h' | ⟨h', _⟩ <;> (rw [h'] at h; cases h)
    · rw [Server.upd_ne _ _ e] at ha ⊢; exact hback ht ha
  | connect => exact hback ht ha
  | other => exact hback ht ha
  | enqueue => exact hback ht ha
  | sendFail => exact hback ht ha
  | recvEnd => exact hback ht ha
  | takeErr => exact hback ht ha
  | cancelMiss => exact hback ht ha
  | takeBad => exact hback ht ha
  | takeMethod => exact hback ht ha
  | methodOk => exact hback ht ha
  | flush => exact hback ht ha
  | flushFail => exact hback ht ha
  | dropProxy => exact hback ht ha

theorem task_pos {x y : Server.State σ C} {l : Server.Label} (h : Server.step sv x l = some y)
    {t : Nat} (ht : t < x.ntask) : (x.tasks t).pos ≤ (y.tasks t).pos ∧ t < y.ntask := by
  have hupd : ∀ t' z, (x.tasks t').pos ≤ z.pos → (x.tasks t).pos ≤ (Server.upd x.tasks t' z t).pos := by
    intro t' z hz
    by_cases e : t = t'
    · subst e; rw [Server.upd_self]; exact hz
    · rw [Server.upd_ne _ _ e]; exact Nat.le_refl _
  have hab : ∀ z : Server.Task, z.abort.pos = z.pos := by
    intro z; unfold Server.Task.abort; split <;> rfl
  have hkill : ∀ z : Server.State σ C, z.tasks = x.tasks →
      (x.tasks t).pos ≤ (z.killLoop.tasks t).pos := by
    intro z hz
    rw [Server.kill_tasks, hz]
    split
    · rw [hab]; exact Nat.le_refl _
    · exact Nat.le_refl _
  cases Server.step_Step h with
  | cancelHit c id t' q hl' hq' =>
    exact ⟨hupd _ _ (by rw [hab]; exact Nat.le_refl _), ht⟩
  | takeStream c id v call q hl' hq' hd hs =>
    simp only
    rw [Server.upd_ne _ _ (by omega : t ≠ x.ntask)]
    exact ⟨Nat.le_refl _, by omega⟩
  | takePanic => exact ⟨hkill _ rfl, ht⟩
  | methodFail => exact ⟨hkill _ rfl, ht⟩
  | methodPanic => exact ⟨hkill _ rfl, ht⟩
  | loopExit => exact ⟨hkill _ rfl, ht⟩
  | poll t' h => exact ⟨hupd _ _ (Nat.le_refl _), ht⟩
  | itemEnd t' h hn => exact ⟨hupd _ _ (Nat.le_refl _), ht⟩
  | itemSend t' v h hn hal => exact ⟨hupd _ _ (Nat.le_succ _), ht⟩
  | itemFail t' v h hn hal => exact ⟨hupd _ _ (Nat.le_succ _), ht⟩
  | itemPanic t' h => exact ⟨hupd _ _ (Nat.le_refl _), ht⟩
  | pending t' h => exact ⟨hupd _ _ (Nat.le_refl _), ht⟩
  | pendingAborted t' h => exact ⟨hupd _ _ (Nat.le_refl _), ht⟩
  | _ => exact ⟨Nat.le_refl _, ht⟩

/-- Generated clients never cancel. -/
theorem Good.no_cancel (G : Good sv b st lab) (n : Nat) :
    ∀ c id, (c, (.ok (.cancelStream id) : Server.Input)) ∉ (st n).server.queue := by
  intro c id hmem
  have hr := G.ex.reach n
  have hq := (Server.inv_queue hr.server).1 (G.inv n).alive
  have hacc : (c, (.ok (.cancelStream id) : Server.Input)) ∈ (st n).server.accepted := by
    rw [hq]; simp [hmem]
  have hlt := (Server.inv_fresh hr.server).1 _ hacc
  cases ho : (st n).owner c with
  | none => exact (G.inv n).owned c hlt ho
  | some ik =>
    obtain ⟨i, k⟩ := ik
    have h2 : (.ok (.cancelStream id) : Server.Input) ∈ acceptedOn (st n).server c :=
      List.mem_map.2 ⟨_, List.mem_filter.2 ⟨hacc, by simp⟩, rfl⟩
    obtain ⟨m, hm, e⟩ := List.mem_map.1 ((inv_up hr c i k ho).acc.subset h2)
    rw [msgInput_eq (call_id_le (hr.client i) (sent_calls (hr.client i)
      (sentOn_sent.1 (List.mem_of_mem_take hm))))] at e
    unfold requestOf at e
    cases e

/-- What a moment changes at the server. -/
theorem Good.server (G : Good sv b st lab) (n : Nat) :
    (st (n + 1)).server = (st n).server ∨ ∃ l, Server.step sv (st n).server l =
      some (st (n + 1)).server ∧ ∀ t, l = .itemPanic t → lab n = some (.server (.itemPanic t)) := by
  rcases G.ex.next n with ⟨_, h2⟩ | ⟨l, h1, h2⟩
  · exact .inl (by rw [h2])
  · have hm := step_CMove h2 (G.peace.labels n l h1).1 (G.closed h1 h2)
    generalize hs' : st (n + 1) = s' at hm
    cases hm with
    | client => exact .inl rfl
    | server L l x h hc hL hi =>
      refine .inr ⟨l, h, ?_⟩
      rintro t rfl
      rcases hL with rfl | ⟨_, ⟨_, hL⟩ | ⟨_, _, hL⟩⟩
      · exact h1
      · cases hL
      · cases hL
    | foreign x h => exact .inr ⟨_, h, by rintro _ ⟨⟩⟩
    | accept i k x h => exact .inr ⟨_, h, by rintro _ ⟨⟩⟩
    | deliver c i k m x ho hm h => exact .inr ⟨_, h, by rintro _ ⟨⟩⟩
    | respond => exact .inl rfl

/-- The task of a stream that does not panic goes on as long as its connection lives. -/
theorem Good.task (G : Good sv b st lab) {t : Nat}
    (hp : ∀ n, lab n ≠ some (.server (.itemPanic t))) (n : Nat) : t < (st n).server.ntask →
    ((st n).server.conns ((st n).server.tasks t).conn).alive = true →
    TaskOk ((st n).server.tasks t) := by
  induction n with
  | zero =>
    intro h
    rw [G.ex.start] at h
    simp [init, Server.init] at h
  | succ n ih =>
    intro ht ha
    rcases G.server n with e | ⟨l, h, hl⟩
    · rw [e] at ht ha ⊢; exact ih ht ha
    · exact task_ok (G.ex.reach n).server h (G.inv (n + 1)).alive
        (by rintro rfl; exact hp n (hl t rfl)) (G.no_cancel n) ht ha ih

/-- A stream on a connection that lives yields item after item. -/
theorem Good.yields (G : Good sv b st lab) {t n N : Nat} (F : FairStream sv st lab t)
    (ht : t < (st n).server.ntask)
    (ha : ∀ m, n ≤ m → ((st m).server.conns ((st m).server.tasks t).conn).alive = true)
    (hsrc : ∀ m, n ≤ m → ∀ p, p < N → ((st m).server.tasks t).src p ≠ none) :
    ∃ m, n ≤ m ∧ N ≤ ((st m).server.tasks t).pos := by
  have hlt : ∀ m, n ≤ m → t < (st m).server.ntask := by
    intro m
    induction m with
    | zero =>
      intro h
      have : n = 0 := by omega
      subst this; exact ht
    | succ m ih =>
      intro h
      by_cases e : n = m + 1
      · subst e; exact ht
      · have ih := ih (by omega)
        rcases G.server m with e | ⟨l, h, _⟩
        · rw [e]; exact ih
        · exact (task_pos h ih).2
  have hok := fun m (hm : n ≤ m) => G.task F.noPanic m (hlt m hm) (ha m hm)
  refine climb_strong (sv := sv) (lab := lab) (st := st)
    (f := fun m => ((st m).server.tasks t).pos) (fun m hm => ?_) F.item ?_ ?_
  · rcases G.server m with e | ⟨l, h, _⟩
    · simp only [e]; exact Nat.le_refl _
    · exact (task_pos h (hlt m hm)).1
  · intro m hm hall
    have hrun : ∀ m', n ≤ m' → ((st m').server.tasks t).pos < N →
        ((st m').server.tasks t).st = .running → Enabled sv (st m') (.server (.item t)) := by
      intro m' hm' hpos hs
      apply enabled_of
      simp only [step, isInternal, if_true, State.serverStep, Option.isSome_map]
      simp only [Server.step, hs]
      cases hx : ((st m').server.tasks t).src ((st m').server.tasks t).pos with
      | none => exact absurd hx (hsrc m' hm' _ hpos)
      | some v => simp only; split <;> rfl
    have hst : ∀ m', m ≤ m' → ((st m').server.tasks t).st = .suspended ∨
        ((st m').server.tasks t).st = .running := by
      intro m' hm'
      rcases hok m' (by omega) with h | h | ⟨_, h⟩
      · exact .inl h
      · exact .inr h
      · exact absurd h (hsrc m' (by omega) _ (hall m' hm'))
    apply Classical.byContradiction
    intro hno
    have hsus : ∀ m', m ≤ m' → ((st m').server.tasks t).st = .suspended := by
      intro m' hm'
      rcases hst m' hm' with h | h
      · exact h
      · exact absurd ⟨m', hm', hrun m' (by omega) (hall m' hm') h⟩ hno
    obtain ⟨m', hm', hl⟩ := F.poll m (fun m' hm' => enabled_of (by
      simp only [step, isInternal, if_true, State.serverStep, Option.isSome_map, Server.step,
        hsus m' hm', Option.isSome_some]))
    have hs := G.ex.step hl
    simp only [step, isInternal, if_true, State.serverStep, Server.step, hsus m' hm',
      Option.map_some, Option.some.injEq] at hs
    have := hsus (m' + 1) (by omega)
    rw [← hs] at this
    simp [Server.State.setTask, Server.upd_self] at this
  · intro m hm hpos hl
    have hs := G.ex.step hl
    simp only [step, isInternal, if_true, State.serverStep] at hs
    obtain ⟨x, hx, he⟩ := map_some hs
    simp only [he]
    have hal := ha m hm
    cases Server.step_Step hx with
    | itemEnd _ h hn => exact absurd hn (hsrc m hm _ hpos)
    | itemSend _ v h hn hal' => simp only [Server.upd_self]; omega
    | itemFail _ v h hn hal' => rw [hal] at hal'; cases hal'

/-- Streams called while there is a socket flow. -/
theorem Good.flows (G : Good sv b st lab) {i n : Nat} (F : Fair sv st lab i)
    {ns m : Str} {a : List Json} (hl : lab n = some (.client i (.subscribe ns m a)))
    (hl' : lab (n + 1) = some (.client i (.attach ((st (n + 1)).clients i).reqId)))
    (hs : hasSocket (st (n + 1)) i)
    (hatt : ∀ n', n + 2 ≤ n' → attached (st (n + 1)) i (st n'))
    (hthrow : ∀ n', ((st n').clients i).threw = false) :
    ∃ n', n + 2 ≤ n' ∧ ∃ c l₁ l₂, (st n').server.log =
        l₁ ++ (c, lastRequest (st (n + 1)) i ns m a) :: l₂ ∧
      ∀ items, Streams sv (replay sv b l₁) (lastRequest (st (n + 1)) i ns m a) items →
        FairStream sv st lab (streams sv b l₁).length →
        ∀ N, (∀ p, p < N → items p ≠ none) → ∃ n'', n' ≤ n'' ∧
          itemData items N <+: calledWith (st (n + 1)) i (st n'') := by
  have hst := G.ex.step hl
  have hst' := G.ex.step hl'
  have hM := attach_made (G.ex.reach n) hst hst' (G.peace.calls (n + 1) i)
  unfold hasSocket at hs
  cases hk : ((st (n + 1)).clients i).socket with
  | none => exact absurd hk hs
  | some k =>
  have hgo : (k, lastMessage (st (n + 1)) i ns m a) ∈ ((st (n + 1)).clients i).sent ∨
      lastMessage (st (n + 1)) i ns m a ∈ (((st (n + 1)).clients i).socks k).waiting := by
    obtain ⟨hc, _⟩ := client_step hst
    simp only [Client.step, Option.some.injEq] at hc
    have hz : Client.InvConn { ((st n).clients i).issue (((st n).clients i).newMsg ns m a) with
        stores := ((st n).clients i).stores ++ [(((st n).clients i).newMsg ns m a).id] } :=
      (Client.inv_conn ((G.ex.reach n).client i)).same rfl rfl rfl rfl rfl
    have hmsg : lastMessage (st (n + 1)) i ns m a = ((st n).clients i).newMsg ns m a := by
      unfold lastMessage
      rw [← hc]
      unfold Client.State.subscribe
      simp [Client.State.issue]
      simp [Client.State.newMsg]
    rw [hmsg]
    rw [← hc] at hk ⊢
    exact openAndSend_goes hz (fun _ h => G.socket h) hk
  obtain ⟨hc, _⟩ := client_step hst'
  simp only [Client.step] at hc
  split at hc
  case isFalse => cases hc
  simp only [Option.some.injEq] at hc
  have hk2 : ((st (n + 2)).clients i).socket = some k := by rw [← hc]; exact hk
  have hgo2 : (k, lastMessage (st (n + 1)) i ns m a) ∈ ((st (n + 2)).clients i).sent ∨
      lastMessage (st (n + 1)) i ns m a ∈ (((st (n + 2)).clients i).socks k).waiting := by
    rw [← hc]; exact hgo
  have hK := G.keeps hk2 hatt
  have H : ∀ m', n + 2 ≤ m' → ((st m').clients i).socket = some k := fun m' hm' => (hK m' hm').1
  obtain ⟨m1, h1, hsent1⟩ := G.transmits F H
    (msg := lastMessage (st (n + 1)) i ns m a) (fun m' hm' => by
      rcases hgo2 with hgo | hgo
      · exact .inr ((G.sent i hm').subset hgo)
      · exact (hK m' hm').2 _ hgo)
  have hsent : ∀ m', m1 ≤ m' → (k, lastMessage (st (n + 1)) i ns m a) ∈ ((st m').clients i).sent :=
    fun m' hm' => (G.sent i hm').subset hsent1
  obtain ⟨c, ho⟩ := sent_owner (G.ex.reach m1) hsent1
  have H1 : ∀ m', m1 ≤ m' → ((st m').clients i).socket = some k := fun m' hm' => H m' (by omega)
  obtain ⟨m2, h2, l₁, l₂, hlog⟩ := G.executed F H1 ho (sentOn_sent.2 hsent1)
  refine ⟨m2, by omega, c, l₁, l₂, hlog, fun items hstr FS N hN => ?_⟩
  have hown : ∀ m', m1 ≤ m' → (st m').owner c = some (i, k) := fun m' hm' => G.ex.owner hm' ho
  have hlogm : ∀ m', m2 ≤ m' → ∃ l₂', (st m').server.log =
      l₁ ++ (c, lastRequest (st (n + 1)) i ns m a) :: l₂' := by
    intro m' hm'
    obtain ⟨r, hr⟩ := G.ex.grows (f := fun s => s.server.log) (by
      intro s l s' hr hst
      cases step_Move hst with
      | server l x hx => exact server_log hx
      | foreign x hx => exact server_log hx
      | accept i k x hx => exact server_log hx
      | deliver c i k m x _ _ hx => exact server_log hx
      | client => exact List.prefix_refl _
      | respond => exact List.prefix_refl _) hm'
    rw [hlog] at hr
    exact ⟨l₂ ++ r, by rw [← hr]; simp; rfl⟩
  have hans : ∀ m', m2 ≤ m' → _ := fun m' hm' => answers_stream (G.ex.reach m') (hown m' (by omega))
    (G.peace.calls m' i) (sentOn_sent.2 (hsent m' (by omega))) (hlogm m' hm').choose_spec hstr
  have hidx : ∀ m', m2 ≤ m' → (streams sv b l₁).length < (st m').server.ntask ∧
      ((st m').server.tasks (streams sv b l₁).length).conn = c := by
    intro m' hm'
    have hs := streams_starts (c := c) hstr
    have hidx : (streams sv b (st m').server.log)[(streams sv b l₁).length]? =
        some ⟨c, (lastMessage (st (n + 1)) i ns m a).id, items⟩ := by
      rw [(hlogm m' hm').choose_spec, streams_append]
      simp only [streams, lastRequest]
      unfold lastMessage
      rw [hs]
      simp
    have hlt : (streams sv b l₁).length < (st m').server.ntask := by
      rw [← (Server.inv_streams (G.ex.reach m').server).1]
      exact (List.getElem?_eq_some_iff.1 hidx).1
    have htask := (Server.inv_streams (G.ex.reach m').server).2 _ hlt
    rw [hidx] at htask
    simp only [Option.some.injEq, Started.mk.injEq] at htask
    exact ⟨hlt, htask.1.symm⟩
  obtain ⟨m3, h3, hpos⟩ := G.yields FS (hidx m2 (Nat.le_refl _)).1
    (fun m' hm' => by
      rw [(hidx m' hm').2]
      exact G.alive F H (by omega) (hown m' (by omega)))
    (N := N) (fun m' hm' p hp => by rw [(hans m' hm').1]; exact hN p hp)
  have hopen : ∀ m', m3 ≤ m' → (((st m').clients i).socks k).st = .opened := by
    intro m' hm'
    have hc := Client.inv_conn ((G.ex.reach m').client i)
    rcases G.socket (H m' (by omega)) with h | h
    · have := sent_wasOpen ((G.ex.reach m').client i) k _ (hsent m' (by omega))
      rw [hc.connecting k h] at this; cases this
    · exact h
  obtain ⟨m4, h4, hp, hpre⟩ := G.arrives F (fun m hm => H m (by omega)) (hown m3 (by omega)) hopen
  refine ⟨m4, by omega, ?_⟩
  obtain ⟨_, p3, _, hal3, hd3⟩ := hans m3 (by omega)
  have hal3 := hal3 (G.alive F H (by omega) (hown m3 (by omega)))
  have hM4 := G.made hM (m := m4) (by omega)
  have hg := (Client.inv_got ((G.ex.reach m4).client i) (hthrow m4)).got _ hM4.lt
  unfold Client.gotRight at hg
  rw [hM4.kind] at hg
  simp only at hg
  have hu := ((Client.inv_live ((G.ex.reach m4).client i)).mem _).1 (hatt m4 (by omega))
  have hrec := (inv_down (G.ex.reach m4) c i k (hown m4 (by omega))).recv (G.peace.calls m4 i) _
    (sentOn_sent.2 (hsent m4 (by omega)))
  unfold calledWith
  rw [hg, hM4.due.2 hp hu.2]
  unfold ClientSpec.dataOf
  rw [hrec]
  have hpre' := (((hpre.filterMap payload).filter
    (fun p => p.1 = (lastMessage (st (n + 1)) i ns m a).id)).map (·.2))
  unfold dataFor at hd3
  rw [hd3, List.map_map] at hpre'
  simp only [Function.comp_def, List.map_id'] at hpre'
  refine List.IsPrefix.trans ?_ hpre'
  have hmono : ∀ d p, itemData items p <+: itemData items (p + d) := by
    intro d
    induction d with
    | zero => intro p; exact List.prefix_refl _
    | succ d ih => intro p; exact (ih p).trans (List.prefix_append _ _)
  have := hmono (p3 - N) N
  rwa [show N + (p3 - N) = p3 by omega] at this

/-! ## Deliveries -/

/-- Where the client is in a delivery. -/
def cursorOf (x : Client.State) : Nat :=
  match x.phase with
  | .idle => 0
  | .delivering _ _ cursor _ => cursor

theorem client_cursor {x y : Client.State} {l : Client.Label} (h : Client.step x l = some y)
    (hx : x.phase ≠ .idle) (hy : y.phase ≠ .idle) :
    cursorOf x ≤ cursorOf y ∧ (l = .visit → cursorOf x < cursorOf y) := by
  have hsame : y.phase = x.phase → l ≠ .visit →
      cursorOf x ≤ cursorOf y ∧ (l = .visit → cursorOf x < cursorOf y) := by
    intro e hl
    unfold cursorOf; rw [e]
    exact ⟨Nat.le_refl _, fun h => absurd h hl⟩
  cases Client.step_Step h with
  | request ns m a => exact hsame (by unfold Client.State.request; simp [Client.State.issue]) (by simp)
  | subscribe ns m a =>
    exact hsame (by unfold Client.State.subscribe; simp [Client.State.issue]) (by simp)
  | attach id h => exact hsame (by simp) (by simp)
  | detach k h hk => exact hsame (by simp) (by simp)
  | opened k hp h => exact absurd hp hx
  | failed k hp h => exact absurd hp hx
  | clean k hp h hw => exact absurd hp hx
  | closing k hp h => exact absurd hp hx
  | method k id data hp h => exact absurd hp hx
  | stream k id data hp h => exact absurd hp hx
  | error k id hp h => exact absurd hp hx
  | garbage k hp h => exact absurd hp hx
  | visitEnd id data cursor settled hp hn => exact absurd (by simp) hy
  | visit id data cursor settled k hp hn =>
    have hk : cursor ≤ k := by
      have := List.find?_some hn
      simpa using this
    unfold cursorOf
    rw [hp]
    simp only
    exact ⟨by omega, fun _ => by omega⟩
  | visitThrow id data cursor settled k hp hn hid hk => exact absurd (by simp) hy
  | timer d hp ht => exact absurd hp hx

/-- Deliveries to finitely many subscriptions end. -/
theorem deliveries_end (E : Execution sv b st lab) {i : Nat}
    (hv : WeaklyFair sv st lab (.client i .visit))
    (hb : ∀ n, (∀ m, n ≤ m → ((st m).clients i).phase ≠ .idle) →
      ∃ B, ∀ m, n ≤ m → ((st m).clients i).nsub ≤ B) :
    ∀ n, ∃ m, n ≤ m ∧ ((st m).clients i).phase = .idle := by
  intro n
  apply Classical.byContradiction
  intro hno
  have hph : ∀ m, n ≤ m → ((st m).clients i).phase ≠ .idle := fun m hm e => hno ⟨m, hm, e⟩
  obtain ⟨B, hB⟩ := hb n hph
  have hcl : ∀ m, (st (m + 1)).clients i = (st m).clients i ∨ ∃ l,
      Client.step ((st m).clients i) l = some ((st (m + 1)).clients i) := by
    intro m
    rcases E.next m with ⟨_, e⟩ | ⟨l, _, h⟩
    · exact .inl (by rw [e])
    · have hset : ∀ j l x, Client.step ((st m).clients j) l = some x →
          ((st m).setClient j x).clients i = (st m).clients i ∨
          ∃ l, Client.step ((st m).clients i) l = some (((st m).setClient j x).clients i) := by
        intro j l x hx
        by_cases e : i = j
        · subst e; rw [setClient_self]; exact .inr ⟨l, hx⟩
        · rw [setClient_ne _ _ e]; exact .inl rfl
      have hm := step_Move h
      generalize hs' : st (m + 1) = s' at hm
      cases hm with
      | client j l x h => exact hset j l x h
      | server => exact .inl rfl
      | foreign => exact .inl rfl
      | accept => exact .inl rfl
      | deliver => exact .inl rfl
      | respond c j k r x ho hm h => exact hset j _ x h
  obtain ⟨m, hm, hT⟩ : ∃ m, n ≤ m ∧ B + 1 ≤ cursorOf ((st m).clients i) := by
    refine climb_weak (sv := sv) (lab := lab) (st := st)
      (f := fun m => cursorOf ((st m).clients i)) (fun m hm => ?_) (fun _ => .client i .visit)
      (fun _ _ => hv) ?_ ?_
    · rcases hcl m with e | ⟨l, h⟩
      · simp only [e]; exact Nat.le_refl _
      · exact (client_cursor h (hph m hm) (hph (m + 1) (by omega))).1
    · intro m hm _
      apply enabled_of
      simp only [step, isLocal, if_true, State.clientStep, Option.isSome_map]
      simp only [Client.step]
      cases hp : ((st m).clients i).phase with
      | idle => exact absurd hp (hph m hm)
      | delivering id data cursor settled => simp only; split <;> rfl
    · intro m hm _ hl
      have hs := E.step hl
      exact (client_cursor (client_step hs).1 (hph m hm) (hph (m + 1) (by omega))).2 rfl
  have hlive := Client.inv_live ((E.reach m).client i)
  cases hp : ((st m).clients i).phase with
  | idle => exact hph m hm hp
  | delivering id data cursor settled =>
    have := (hlive.cursor _ _ _ _ hp).1
    have h2 := hB m hm
    unfold cursorOf at hT
    rw [hp] at hT
    simp only at hT
    omega

end Verif.System
