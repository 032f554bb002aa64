import Verif.Rpc.ServerInv

/-!
# Invariants about streams and subscriptions (proof helpers)
-/

namespace Verif.Server

open Verif Verif.ServerSpec

variable {σ C : Type}

/-- The responses of stream `t` recorded in a connection. -/
def Conn.itemsOf (c : Conn) (t : Nat) : List Response :=
  (c.produced.filter (fun p => p.1 == some t)).map (·.2)

theorem send_items (c : Conn) (f : Option Nat) (r : Response) (t : Nat) :
    (c.send f r).1.itemsOf t =
      if c.alive = true ∧ f = some t then c.itemsOf t ++ [r] else c.itemsOf t := by
  unfold Conn.itemsOf; rw [Conn.send_produced]
  by_cases ha : c.alive = true <;> by_cases hf : f = some t <;> simp [ha, hf]

theorem mkStream_eq (id : Nat) (x : Except SerdeErr Json) :
    Response.mkStream id x = itemResponse id x := by cases x <;> rfl

/-- Only an item step of task `t` adds to the items of `t`. -/
theorem step_items {sv : Service σ C} {b : σ} {s s' : State σ C} {l : Label} (t : Nat)
    (hr : Reachable sv b s) (hst : step sv s l = some s') (hl : l ≠ .item t) (c : Nat) :
    (s'.conns c).itemsOf t = (s.conns c).itemsOf t := by
  have hset : ∀ c x, x.itemsOf t = (s.conns c).itemsOf t → ∀ c',
      (upd s.conns c x c').itemsOf t = (s.conns c').itemsOf t := by
    intro c x hx c'
    by_cases e : c' = c
    · subst e; rwa [upd_self]
    · rw [upd_ne _ _ e]
  have hs := step_Step hst
  cases hs <;> first
    | rfl
    | (refine hset _ _ ?_ c; first | rfl | (rw [send_items]; simp; done))
    | skip
  case connect =>
    refine hset _ _ ?_ c
    rw [(inv_fresh hr).2.1 _ (Nat.le_refl _)]
    rfl
  case itemSend t' x ht hn ha =>
    refine hset _ _ ?_ c
    rw [send_items, if_neg]
    rintro ⟨_, h⟩
    cases h
    exact hl rfl

theorem inv_items {sv : Service σ C} {b : σ} {s : State σ C} (h : Reachable sv b s) :
    ∀ t, (∀ c, (s.ntask ≤ t ∨ c ≠ (s.tasks t).conn) → (s.conns c).itemsOf t = []) ∧
      (∀ i, i < (s.tasks t).pos → (s.tasks t).src i ≠ none) ∧
      (t < s.ntask → ∃ n, n ≤ (s.tasks t).pos ∧
        ((s.conns (s.tasks t).conn).alive = true → n = (s.tasks t).pos) ∧
        (s.conns (s.tasks t).conn).itemsOf t =
          firstItems ⟨(s.tasks t).conn, (s.tasks t).id, (s.tasks t).src⟩ n) := by
  refine Reachable.induct (P := fun s =>
    ∀ t, (∀ c, (s.ntask ≤ t ∨ c ≠ (s.tasks t).conn) → (s.conns c).itemsOf t = []) ∧
      (∀ i, i < (s.tasks t).pos → (s.tasks t).src i ≠ none) ∧
      (t < s.ntask → ∃ n, n ≤ (s.tasks t).pos ∧
        ((s.conns (s.tasks t).conn).alive = true → n = (s.tasks t).pos) ∧
        (s.conns (s.tasks t).conn).itemsOf t =
          firstItems ⟨(s.tasks t).conn, (s.tasks t).id, (s.tasks t).src⟩ n)) ?_ ?_ h
  · intro t
    refine ⟨?_, ?_, ?_⟩
    · intro c _; rfl
    · intro i hi; simp [init, noTask] at hi
    · intro ht; simp [init] at ht
  · intro s l s' hr ih hst t
    have hfr := inv_fresh hr
    obtain ⟨ih1, ih2, ih3⟩ := ih t
    -- steps that change neither the items nor the data of task `t`
    have hsame : l ≠ .item t → (s'.tasks t).conn = (s.tasks t).conn →
        (s'.tasks t).id = (s.tasks t).id → (s'.tasks t).src = (s.tasks t).src →
        (s'.tasks t).pos = (s.tasks t).pos → s'.ntask = s.ntask →
        (t < s.ntask → (s'.conns (s.tasks t).conn).alive = true →
          (s.conns (s.tasks t).conn).alive = true) →
        (∀ c, (s'.ntask ≤ t ∨ c ≠ (s'.tasks t).conn) → (s'.conns c).itemsOf t = []) ∧
        (∀ i, i < (s'.tasks t).pos → (s'.tasks t).src i ≠ none) ∧
        (t < s'.ntask → ∃ n, n ≤ (s'.tasks t).pos ∧
          ((s'.conns (s'.tasks t).conn).alive = true → n = (s'.tasks t).pos) ∧
          (s'.conns (s'.tasks t).conn).itemsOf t =
            firstItems ⟨(s'.tasks t).conn, (s'.tasks t).id, (s'.tasks t).src⟩ n) := by
      intro hl e1 e2 e3 e4 e5 hal
      rw [e1, e2, e3, e4, e5]
      refine ⟨?_, ih2, ?_⟩
      · intro c hc; rw [step_items t hr hst hl]; exact ih1 c hc
      · intro ht
        obtain ⟨n, hn1, hn2, hn3⟩ := ih3 ht
        refine ⟨n, hn1, fun h => hn2 (hal ht h), ?_⟩
        rw [step_items t hr hst hl]; exact hn3
    have hal_upd : ∀ c x, (x.alive = true → (s.conns c).alive = true) →
        ∀ c', (upd s.conns c x c').alive = true → (s.conns c').alive = true := by
      intro c x hx c' h
      by_cases e : c' = c
      · subst e; rw [upd_self] at h; exact hx h
      · rwa [upd_ne _ _ e] at h
    have hpos : ∀ t' x, x.conn = (s.tasks t').conn ∧ x.id = (s.tasks t').id ∧
        x.src = (s.tasks t').src ∧ x.pos = (s.tasks t').pos →
        (upd s.tasks t' x t).conn = (s.tasks t).conn ∧
        (upd s.tasks t' x t).id = (s.tasks t).id ∧
        (upd s.tasks t' x t).src = (s.tasks t).src ∧
        (upd s.tasks t' x t).pos = (s.tasks t).pos := by
      intro t' x hx
      by_cases e : t = t'
      · subst e; rwa [upd_self]
      · rw [upd_ne _ _ e]; exact ⟨rfl, rfl, rfl, rfl⟩
    cases step_Step hst
    case connect hh =>
      refine hsame (by simp) rfl rfl rfl rfl rfl ?_
      intro ht h
      have := hfr.2.2.1 t ht
      simp only at h
      rwa [upd_ne _ _ (by omega)] at h
    case other => exact hsame (by simp) rfl rfl rfl rfl rfl (fun _ => id)
    case enqueue => exact hsame (by simp) rfl rfl rfl rfl rfl (fun _ => id)
    case sendFail => exact hsame (by simp) rfl rfl rfl rfl rfl (fun _ => hal_upd _ _ (by simp) _)
    case recvEnd => exact hsame (by simp) rfl rfl rfl rfl rfl (fun _ => hal_upd _ _ (by simp) _)
    case takeErr =>
      exact hsame (by simp) rfl rfl rfl rfl rfl
        (fun _ => hal_upd _ _ (by rw [Conn.send_alive]; exact id) _)
    case takeBad =>
      exact hsame (by simp) rfl rfl rfl rfl rfl
        (fun _ => hal_upd _ _ (by rw [Conn.send_alive]; exact id) _)
    case methodOk =>
      exact hsame (by simp) rfl rfl rfl rfl rfl
        (fun _ => hal_upd _ _ (by rw [Conn.send_alive]; exact id) _)
    case cancelHit c id t' q hl hq ht' =>
      have := hpos t' (s.tasks t').abort (by simp)
      exact hsame (by simp) this.1 this.2.1 this.2.2.1 this.2.2.2 rfl (fun _ h => h)
    case cancelMiss => exact hsame (by simp) rfl rfl rfl rfl rfl (fun _ => id)
    case takeMethod => exact hsame (by simp) rfl rfl rfl rfl rfl (fun _ => id)
    case dropProxy => exact hsame (by simp) rfl rfl rfl rfl rfl (fun _ => id)
    case flush c r rs ha hc =>
      exact hsame (by simp) rfl rfl rfl rfl rfl (fun _ => hal_upd _ _ (fun _ => ha) _)
    case flushFail c r rs ha hc =>
      exact hsame (by simp) rfl rfl rfl rfl rfl (fun _ => hal_upd _ _ (fun _ => ha) _)
    case poll t' ht' =>
      have := hpos t' { s.tasks t' with st := .running } (by simp)
      exact hsame (by simp) this.1 this.2.1 this.2.2.1 this.2.2.2 rfl (fun _ => id)
    case itemPanic t' ht' =>
      have := hpos t' { s.tasks t' with st := .done } (by simp)
      exact hsame (by simp) this.1 this.2.1 this.2.2.1 this.2.2.2 rfl (fun _ => id)
    case pending t' ht' =>
      have := hpos t' { s.tasks t' with st := .suspended } (by simp)
      exact hsame (by simp) this.1 this.2.1 this.2.2.1 this.2.2.2 rfl (fun _ => id)
    case pendingAborted t' ht' =>
      have := hpos t' { s.tasks t' with st := .cancelled } (by simp)
      exact hsame (by simp) this.1 this.2.1 this.2.2.1 this.2.2.2 rfl (fun _ => id)
    case takePanic =>
      refine hsame (by simp) ?_ ?_ ?_ ?_ rfl (fun _ => id) <;>
        (rw [kill_tasks]; split <;> simp)
    case methodPanic =>
      refine hsame (by simp) ?_ ?_ ?_ ?_ rfl (fun _ => id) <;>
        (rw [kill_tasks]; split <;> simp)
    case loopExit =>
      refine hsame (by simp) ?_ ?_ ?_ ?_ rfl (fun _ => id) <;>
        (rw [kill_tasks]; split <;> simp)
    case methodFail =>
      refine hsame (by simp) ?_ ?_ ?_ ?_ rfl (fun _ => id) <;>
        (rw [kill_tasks]; split <;> simp)
    case takeStream c id v call q hl hq hd hs =>
      by_cases e : t = s.ntask
      · subst e
        simp only [upd_self]
        have hnil : ∀ c, (s.conns c).itemsOf s.ntask = [] := fun c => ih1 c (.inl (Nat.le_refl _))
        refine ⟨fun c _ => hnil c, fun i hi => absurd hi (by simp), fun _ => ⟨0, ?_⟩⟩
        simp [hnil, firstItems]
      · simp only [upd_ne _ _ e]
        refine ⟨?_, ih2, ?_⟩
        · intro c hc
          apply ih1
          rcases hc with hc | hc
          · exact .inl (by omega)
          · exact .inr hc
        · intro ht; exact ih3 (by omega)
    case itemEnd t' ht' hn =>
      by_cases e : t = t'
      · subst e; simp only [upd_self]; exact ⟨ih1, ih2, ih3⟩
      · simp only [upd_ne _ _ e]; exact ⟨ih1, ih2, ih3⟩
    case itemFail t' x ht' hn ha =>
      by_cases e : t = t'
      · subst e
        simp only [upd_self]
        refine ⟨ih1, ?_, ?_⟩
        · intro i hi
          by_cases e' : i = (s.tasks t).pos
          · rw [e', hn]; simp
          · exact ih2 i (by omega)
        · intro ht
          obtain ⟨n, hn1, hn2, hn3⟩ := ih3 ht
          exact ⟨n, by omega, fun h => by simp [ha] at h, hn3⟩
      · simp only [upd_ne _ _ e]; exact ⟨ih1, ih2, ih3⟩
    case itemSend t' x ht' hn ha =>
      by_cases e : t = t'
      · subst e
        have hlt : t < s.ntask := by
          apply Classical.byContradiction
          intro h
          rw [hfr.2.2.2 t (by omega)] at ht'
          simp [noTask] at ht'
        refine ⟨?_, ?_, ?_⟩
        · intro c hc
          simp only [upd_self] at hc ⊢
          rcases hc with hc | hc
          · omega
          · rw [upd_ne _ _ hc]; exact ih1 c (.inr hc)
        · intro i hi
          simp only [upd_self] at hi ⊢
          by_cases e' : i = (s.tasks t).pos
          · rw [e', hn]; simp
          · exact ih2 i (by omega)
        · intro _
          obtain ⟨n, hn1, hn2, hn3⟩ := ih3 hlt
          have := hn2 ha
          subst this
          refine ⟨(s.tasks t).pos + 1, by simp, by simp, ?_⟩
          simp only [upd_self]
          rw [send_items, if_pos ⟨ha, rfl⟩, hn3]
          simp [firstItems, hn, mkStream_eq]
      · simp only [upd_ne _ _ e]
        have hi : ∀ c, (upd s.conns (s.tasks t').conn ((s.conns (s.tasks t').conn).send (some t')
            (Response.mkStream (s.tasks t').id x)).1 c).itemsOf t = (s.conns c).itemsOf t := by
          intro c
          by_cases e2 : c = (s.tasks t').conn
          · subst e2; rw [upd_self, send_items, if_neg]
            rintro ⟨_, h⟩; cases h; exact e rfl
          · rw [upd_ne _ _ e2]
        refine ⟨?_, ih2, ?_⟩
        · intro c hc; rw [hi]; exact ih1 c hc
        · intro ht
          obtain ⟨n, hn1, hn2, hn3⟩ := ih3 ht
          refine ⟨n, hn1, ?_, ?_⟩
          · intro h; exact hn2 (hal_upd _ _ (by rw [Conn.send_alive]; exact id) _ h)
          · rw [hi]; exact hn3

/-! ## Subscriber map -/

theorem subsGet_remove (m : List (Nat × Nat)) (id id' : Nat) :
    subsGet (subsRemove m id') id = if id = id' then none else subsGet m id := by
  unfold subsGet subsRemove
  induction m with
  | nil => simp
  | cons p m ih =>
    simp only [List.filter_cons, List.find?_cons]
    by_cases h1 : p.1 = id' <;> by_cases h2 : p.1 = id <;> simp_all <;> grind

theorem subsGet_insert (m : List (Nat × Nat)) (id id' t : Nat) :
    subsGet (subsInsert m id' t) id = if id = id' then some t else subsGet m id := by
  unfold subsInsert
  by_cases h : id = id'
  · subst h; simp [subsGet]
  · have : subsGet ((id', t) :: subsRemove m id') id = subsGet (subsRemove m id') id := by
      simp [subsGet, List.find?_cons, Ne.symm h]
    rw [this, subsGet_remove]; simp [h]

theorem mem_of_subsGet {m : List (Nat × Nat)} {id t : Nat} (h : subsGet m id = some t) :
    (id, t) ∈ m := by
  unfold subsGet at h
  cases hf : m.find? (·.1 == id) with
  | none => simp [hf] at h
  | some p =>
    rw [hf] at h
    have h1 := List.find?_some hf
    have h2 := List.mem_of_find?_eq_some hf
    simp at h h1
    subst h; subst h1; exact h2

theorem inv_subs {sv : Service σ C} {b : σ} {s : State σ C} (h : Reachable sv b s) :
    (LoopAlive s → ∀ id, subsGet s.subs id = active sv b 0 (fun _ => none) s.log id) ∧
    (∀ p ∈ s.subs, p.2 < s.ntask ∧ (s.tasks p.2).id = p.1) ∧
    (s.subs.map (·.1)).Nodup := by
  refine Reachable.induct (P := fun s =>
    (LoopAlive s → ∀ id, subsGet s.subs id = active sv b 0 (fun _ => none) s.log id) ∧
    (∀ p ∈ s.subs, p.2 < s.ntask ∧ (s.tasks p.2).id = p.1) ∧
    (s.subs.map (·.1)).Nodup) ?_ ?_ h
  · refine ⟨fun _ id => rfl, ?_, ?_⟩
    · intro p hp; simp [init] at hp
    · simp [init]
  · intro s l s' hr ih hst
    obtain ⟨ih1, ih2, ih3⟩ := ih
    have hb := inv_backend hr
    have hlen := (inv_streams hr).1
    have hupd : ∀ t x, x.id = (s.tasks t).id → ∀ p ∈ s.subs,
        p.2 < s.ntask ∧ (upd s.tasks t x p.2).id = p.1 := by
      intro t x hx p hp
      refine ⟨(ih2 p hp).1, ?_⟩
      by_cases e : p.2 = t
      · rw [e, upd_self, hx, ← e]; exact (ih2 p hp).2
      · rw [upd_ne _ _ e]; exact (ih2 p hp).2
    have hnone : ∀ c i, starts sv s.backend c i = none → (∀ id, i ≠ .ok (.cancelStream id)) →
        active sv b 0 (fun _ => none) (s.log ++ [(c, i)]) =
          active sv b 0 (fun _ => none) s.log := by
      intro c i hi hc
      rw [active_snoc, ← hb]
      simp only [active]
      split
      · rename_i h; rw [hi] at h; cases h
      · exact absurd rfl (hc _)
      · rfl
    have hidle : s.loop = .idle → LoopAlive s := fun h => by simp [LoopAlive, h]
    have hdead : ∀ s1 : State σ C, (LoopAlive s1.killLoop → ∀ id, subsGet s1.killLoop.subs id =
          active sv b 0 (fun _ => none) s1.killLoop.log id) ∧
        (∀ p ∈ s1.killLoop.subs,
          p.2 < s1.killLoop.ntask ∧ (s1.killLoop.tasks p.2).id = p.1) ∧
        (s1.killLoop.subs.map (·.1)).Nodup := by
      intro s1
      exact ⟨fun h => absurd h (by simp [LoopAlive]), by simp, by simp⟩
    cases step_Step hst <;> first
      | exact ⟨ih1, ih2, ih3⟩
      | exact hdead _
      | exact ⟨ih1, hupd _ _ rfl, ih3⟩
      | skip
    case takeErr c r q hl hq =>
      refine ⟨fun h id => ?_, ih2, ih3⟩
      simp only [hnone c (.error r) rfl (by simp)]
      exact ih1 (hidle hl) id
    case cancelHit c id t q hl hq ht =>
      refine ⟨fun h id' => ?_, ?_, ?_⟩
      · simp only
        rw [active_snoc, subsGet_remove, ih1 (hidle hl)]
        simp [active, starts]
      · intro p hp
        have hp' : p ∈ s.subs := (List.mem_filter.1 hp).1
        exact hupd t _ (abort_id _) p hp'
      · exact ih3.sublist (List.filter_sublist.map _)
    case cancelMiss c id q hl hq ht =>
      refine ⟨fun h id' => ?_, ih2, ih3⟩
      simp only
      rw [active_snoc, ← hb]
      simp only [active, starts]
      rw [ih1 (hidle hl)] at ht ⊢
      split
      · rename_i e; rw [e]; exact ht
      · rfl
    case takeBad c id v e q hl hq hd =>
      refine ⟨fun h id' => ?_, ih2, ih3⟩
      simp only [hnone c (.ok (.exec id v)) (by simp [starts, hd]) (by simp)]
      exact ih1 (hidle hl) id'
    case takeMethod c id v call q hl hq hd hs =>
      exact ⟨fun h id' => ih1 (hidle hl) id', ih2, ih3⟩
    case methodOk c id call i hl ha =>
      obtain ⟨v, rfl, hd, hs⟩ := inv_busy hr _ _ _ _ hl
      refine ⟨fun h id' => ?_, ih2, ih3⟩
      simp only [hnone c (.ok (.exec id v)) (by simp [starts, hd, hs]) (by simp)]
      exact ih1 (by simp [LoopAlive, hl]) id'
    case takeStream c id v call q hl hq hd hs =>
      have hst' : starts sv s.backend c (.ok (.exec id v))
          = some ⟨c, id, (sv.runStream s.backend call).2⟩ := by simp [starts, hd, hs]
      refine ⟨fun h id' => ?_, ?_, ?_⟩
      · simp only
        rw [active_snoc, ← hb, subsGet_insert, ih1 (hidle hl)]
        simp only [active, hst', hlen]
        simp
      · intro p hp
        simp only
        rcases List.mem_cons.1 hp with rfl | hp
        · simp
        · have hp' : p ∈ s.subs := (List.mem_filter.1 hp).1
          have := ih2 p hp'
          exact ⟨by omega, by rw [upd_ne _ _ (by omega)]; exact this.2⟩
      · simp only [subsInsert, List.map_cons, List.nodup_cons]
        refine ⟨?_, ih3.sublist (List.filter_sublist.map _)⟩
        intro hm
        obtain ⟨p, hp, hp'⟩ := List.mem_map.1 hm
        have := (List.mem_filter.1 hp).2
        simp [hp'] at this

/-! ## Stopping tasks -/

/-- The task has ended. -/
def TaskSt.Stopped (st : TaskSt) : Prop := st = .done ∨ st = .cancelled
/-- The task has ended or will end at its next yield. -/
def TaskSt.Stopping (st : TaskSt) : Prop := st = .runningAborted ∨ st.Stopped

theorem abort_stopping (t : Task) : t.abort.st.Stopping := by
  unfold Task.abort TaskSt.Stopping TaskSt.Stopped; split <;> simp_all
  cases h : t.st <;> simp_all

theorem abort_stopped (t : Task) (h : t.st ≠ .running ∧ t.st ≠ .runningAborted) :
    t.abort.st.Stopped := by
  unfold Task.abort TaskSt.Stopped; split <;> simp_all
  cases h : t.st <;> simp_all

theorem abort_keeps {t : Task} (h : t.st.Stopped) : t.abort = t := by
  unfold Task.abort; rcases h with h | h <;> rw [h]

theorem ntask_mono {sv : Service σ C} {s s' : State σ C} {l : Label}
    (hst : step sv s l = some s') : s.ntask ≤ s'.ntask := by
  cases step_Step hst <;> simp

theorem run_ntask_mono {sv : Service σ C} {s s' : State σ C} {ls : List Label}
    (hst : run sv s ls = some s') : s.ntask ≤ s'.ntask := by
  induction ls generalizing s with
  | nil => simp [run] at hst; subst hst; exact Nat.le_refl _
  | cons l ls ih =>
    simp only [run] at hst
    split at hst
    · exact Nat.le_trans (ntask_mono ‹_›) (ih hst)
    · cases hst

/-- A stopping task stays stopping; a stopped one stays stopped; a pending one stops. -/
theorem step_stop {sv : Service σ C} {s s' : State σ C} {l : Label} {t : Nat}
    (ht : t < s.ntask) (hst : step sv s l = some s') :
    ((s.tasks t).st.Stopped → (s'.tasks t).st.Stopped) ∧
    ((s.tasks t).st.Stopping → (s'.tasks t).st.Stopping) ∧
    ((s.tasks t).st.Stopping → l = .pending t → (s'.tasks t).st.Stopped) := by
  have key : ∀ t' x, (x.st.Stopped ∨ (x.st.Stopping ∧ ¬ (s.tasks t').st.Stopped ∧ l ≠ .pending t')
        ∨ (¬ (s.tasks t').st.Stopping)) →
      (((s.tasks t).st.Stopped → (upd s.tasks t' x t).st.Stopped) ∧
      ((s.tasks t).st.Stopping → (upd s.tasks t' x t).st.Stopping) ∧
      ((s.tasks t).st.Stopping → l = .pending t → t = t' → (upd s.tasks t' x t).st.Stopped)) := by
    intro t' x hx
    by_cases e : t = t'
    · subst e
      rw [upd_self]
      rcases hx with h | ⟨h1, h2, h3⟩ | h
      · exact ⟨fun _ => h, fun _ => .inr h, fun _ _ _ => h⟩
      · exact ⟨fun h => absurd h h2, fun _ => h1, fun _ h => absurd h h3⟩
      · exact ⟨fun h' => absurd (.inr h') h, fun h' => absurd h' h, fun h' => absurd h' h⟩
    · rw [upd_ne _ _ e]; exact ⟨id, id, fun _ _ h => absurd h e⟩
  have hkill : ∀ s1 : State σ C, s1.tasks = s.tasks →
      ((s.tasks t).st.Stopped → (s1.killLoop.tasks t).st.Stopped) ∧
      ((s.tasks t).st.Stopping → (s1.killLoop.tasks t).st.Stopping) := by
    intro s1 e
    rw [kill_tasks, e]
    split
    · exact ⟨fun h => by rw [abort_keeps h]; exact h, fun _ => abort_stopping _⟩
    · exact ⟨id, id⟩
  have ab : ∀ t', (s.tasks t').abort.st.Stopped ∨
      ((s.tasks t').abort.st.Stopping ∧ ¬ (s.tasks t').st.Stopped) ∨ ¬ (s.tasks t').st.Stopping := by
    intro t'
    by_cases h : (s.tasks t').st.Stopped
    · rw [abort_keeps h]; exact .inl h
    · exact .inr (.inl ⟨abort_stopping _, h⟩)
  cases step_Step hst <;> first
    | exact ⟨id, id, fun _ h => nomatch h⟩
    | exact ⟨(hkill _ rfl).1, (hkill _ rfl).2, fun _ h => nomatch h⟩
    | skip
  case cancelHit c id t' q hl hq ht' =>
    have := key t' (s.tasks t').abort (by
      rcases ab t' with h | ⟨h1, h2⟩ | h
      · exact .inl h
      · exact .inr (.inl ⟨h1, h2, by simp⟩)
      · exact .inr (.inr h))
    exact ⟨this.1, this.2.1, fun _ h => nomatch h⟩
  case takeStream =>
    simp only
    rw [upd_ne _ _ (by omega)]
    exact ⟨id, id, fun _ h => nomatch h⟩
  case poll t' ht' =>
    have := key t' { s.tasks t' with st := .running }
      (.inr (.inr (by simp [TaskSt.Stopping, TaskSt.Stopped, ht'])))
    exact ⟨this.1, this.2.1, fun _ h => nomatch h⟩
  case itemEnd t' ht' hn =>
    have := key t' { s.tasks t' with st := .done } (.inl (.inl rfl))
    exact ⟨this.1, this.2.1, fun _ h => nomatch h⟩
  case itemPanic t' ht' =>
    have := key t' { s.tasks t' with st := .done } (.inl (.inl rfl))
    exact ⟨this.1, this.2.1, fun _ h => nomatch h⟩
  case itemFail t' x ht' hn ha =>
    have := key t' { s.tasks t' with pos := (s.tasks t').pos + 1, st := .done } (.inl (.inl rfl))
    exact ⟨this.1, this.2.1, fun _ h => nomatch h⟩
  case itemSend t' x ht' hn ha =>
    have := key t' { s.tasks t' with pos := (s.tasks t').pos + 1 } (by
      rcases ht' with h | h
      · exact .inr (.inr (by simp [TaskSt.Stopping, TaskSt.Stopped, h]))
      · exact .inr (.inl ⟨.inl h, by simp [TaskSt.Stopped, h], by simp⟩))
    exact ⟨this.1, this.2.1, fun _ h => nomatch h⟩
  case pending t' ht' =>
    have := key t' { s.tasks t' with st := .suspended }
      (.inr (.inr (by simp [TaskSt.Stopping, TaskSt.Stopped, ht'])))
    exact ⟨this.1, this.2.1, fun h1 h2 => this.2.2 h1 h2 (by cases h2; rfl)⟩
  case pendingAborted t' ht' =>
    have := key t' { s.tasks t' with st := .cancelled } (.inl (.inr rfl))
    exact ⟨this.1, this.2.1, fun h1 h2 => this.2.2 h1 h2 (by cases h2; rfl)⟩

theorem Reachable.step {sv : Service σ C} {b : σ} {s s' : State σ C} {l : Label}
    (hr : Reachable sv b s) (h : step sv s l = some s') : Reachable sv b s' := by
  obtain ⟨l₀, h₀⟩ := hr
  exact ⟨l₀ ++ [l], by rw [run_append, h₀]; simp [run, h]⟩

theorem Reachable.run {sv : Service σ C} {b : σ} {s s' : State σ C} {ls : List Label}
    (hr : Reachable sv b s) (h : run sv s ls = some s') : Reachable sv b s' := by
  obtain ⟨l₀, h₀⟩ := hr
  exact ⟨l₀ ++ ls, by rw [run_append, h₀]; exact h⟩

/-- A stopped task produces nothing, in any continuation. -/
theorem run_stopped {sv : Service σ C} {b : σ} {s s' : State σ C} {ls : List Label} {t : Nat}
    (hr : Reachable sv b s) (ht : t < s.ntask) (hs : (s.tasks t).st.Stopped)
    (h : Server.run sv s ls = some s') :
    (s'.tasks t).st.Stopped ∧ ∀ c, (s'.conns c).itemsOf t = (s.conns c).itemsOf t := by
  induction ls generalizing s with
  | nil => simp [Server.run] at h; subst h; exact ⟨hs, fun _ => rfl⟩
  | cons l ls ih =>
    simp only [Server.run] at h
    split at h
    · rename_i s1 h1
      have h2 := ih (hr.step h1) (Nat.lt_of_lt_of_le ht (ntask_mono h1)) ((step_stop ht h1).1 hs) h
      refine ⟨h2.1, fun c => ?_⟩
      rw [h2.2 c]
      apply step_items t hr h1
      rintro rfl
      simp only [Server.step] at h1
      rcases hs with hs | hs <;> simp [hs] at h1
    · cases h

/-- A stopping task keeps stopping. -/
theorem run_stopping {sv : Service σ C} {s s' : State σ C} {ls : List Label} {t : Nat}
    (ht : t < s.ntask) (hs : (s.tasks t).st.Stopping)
    (h : Server.run sv s ls = some s') : (s'.tasks t).st.Stopping := by
  induction ls generalizing s with
  | nil => simp [Server.run] at h; subst h; exact hs
  | cons l ls ih =>
    simp only [Server.run] at h
    split at h
    · rename_i s1 h1
      exact ih (Nat.lt_of_lt_of_le ht (ntask_mono h1)) ((step_stop ht h1).2.1 hs) h
    · cases h

end Verif.Server
