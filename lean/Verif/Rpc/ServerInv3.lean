import Verif.Rpc.ServerInv2

/-!
# Schedules and what they deliver; death of the server task (proof helpers)
-/

namespace Verif.ServerSpec
open Verif Verif.Server

/-- The requests that arrive on the sockets during a schedule: the text frames, in order. -/
def arrivals : List Label → List (Nat × Input)
  | [] => []
  | .frame c (.text doc) :: ls => (c, frameInput doc) :: arrivals ls
  | _ :: ls => arrivals ls

end Verif.ServerSpec

namespace Verif.Server

open Verif Verif.ServerSpec

variable {σ C : Type}

theorem arrivals_append (l₁ l₂ : List Label) : arrivals (l₁ ++ l₂) = arrivals l₁ ++ arrivals l₂ := by
  fun_induction arrivals l₁ <;> simp_all [arrivals]

theorem not_alive_iff (s : State σ C) : ¬ LoopAlive s ↔ s.loop = .dead := step_iff_dead s

theorem alive_of_idle {s : State σ C} (h : s.loop = .idle) : LoopAlive s := by
  simp [LoopAlive, h]
theorem alive_of_busy {s : State σ C} {c id call i} (h : s.loop = .busy c id call i) :
    LoopAlive s := by simp [LoopAlive, h]

/-- The server task never comes back. -/
theorem step_dead {sv : Service σ C} {s s' : State σ C} {l : Label} (hd : ¬ LoopAlive s)
    (hst : step sv s l = some s') :
    ¬ LoopAlive s' ∧ s'.log = s.log ∧ s'.accepted = s.accepted ∧ s'.backend = s.backend ∧
      ∀ c, c < s.nconn → (s'.conns c).replies = (s.conns c).replies := by
  have hd' := (not_alive_iff s).1 hd
  have hset : ∀ c x, x.replies = (s.conns c).replies → ∀ c', c' < s.nconn →
      (upd s.conns c x c').replies = (s.conns c').replies := by
    intro c x hx c' _
    by_cases e : c' = c
    · subst e; rwa [upd_self]
    · rw [upd_ne _ _ e]
  cases step_Step hst <;> first
    | (exfalso; simp_all; done)
    | exact ⟨hd, rfl, rfl, rfl, fun _ _ => rfl⟩
    | exact ⟨hd, rfl, rfl, rfl, hset _ _ rfl⟩
    | exact ⟨hd, rfl, rfl, rfl, hset _ _ (send_replies_some _ _ _)⟩
    | skip
  case connect =>
    refine ⟨hd, rfl, rfl, rfl, ?_⟩
    intro c hc
    simp only
    rw [upd_ne _ _ (by omega)]

theorem nconn_mono {sv : Service σ C} {s s' : State σ C} {l : Label}
    (hst : step sv s l = some s') : s.nconn ≤ s'.nconn := by
  cases step_Step hst <;> simp

theorem run_dead {sv : Service σ C} {s s' : State σ C} {ls : List Label} (hd : ¬ LoopAlive s)
    (hst : run sv s ls = some s') :
    ¬ LoopAlive s' ∧ s'.log = s.log ∧ s'.accepted = s.accepted ∧ s'.backend = s.backend ∧
      ∀ c, c < s.nconn → (s'.conns c).replies = (s.conns c).replies := by
  induction ls generalizing s with
  | nil => simp [run] at hst; subst hst; exact ⟨hd, rfl, rfl, rfl, fun _ _ => rfl⟩
  | cons l ls ih =>
    simp only [run] at hst
    split at hst
    · rename_i s1 h1
      have e1 := step_dead hd h1
      have e2 := ih e1.1 hst
      refine ⟨e2.1, e2.2.1.trans e1.2.1, e2.2.2.1.trans e1.2.2.1, e2.2.2.2.1.trans e1.2.2.2.1, ?_⟩
      intro c hc
      exact (e2.2.2.2.2 c (Nat.lt_of_lt_of_le hc (nconn_mono h1))).trans (e1.2.2.2.2 c hc)
    · cases hst

theorem step_arrivals {sv : Service σ C} {s s' : State σ C} {l : Label}
    (hst : step sv s l = some s') :
    (LoopAlive s → s'.accepted = s.accepted ++ arrivals [l]) ∧
    (¬ LoopAlive s → s'.accepted = s.accepted) := by
  refine ⟨?_, fun hd => (step_dead hd hst).2.2.1⟩
  intro ha
  cases step_Step hst <;> first
    | (simp [arrivals]; done)
    | (exfalso; exact absurd ha ‹_›)

theorem run_arrivals {sv : Service σ C} {s s' : State σ C} {ls : List Label}
    (hst : run sv s ls = some s') :
    (LoopAlive s' → s'.accepted = s.accepted ++ arrivals ls) ∧
    s'.accepted <+: s.accepted ++ arrivals ls := by
  induction ls generalizing s with
  | nil => simp [run] at hst; subst hst; simp [arrivals]
  | cons l ls ih =>
    simp only [run] at hst
    split at hst
    · rename_i s1 h1
      have e := step_arrivals h1
      have e2 := ih hst
      have harr : arrivals (l :: ls) = arrivals [l] ++ arrivals ls := arrivals_append [l] ls
      rw [harr]
      by_cases ha : LoopAlive s
      · rw [← List.append_assoc, ← e.1 ha]; exact e2
      · have h3 := step_dead ha h1
        have h4 := run_dead h3.1 hst
        refine ⟨fun h => absurd h h4.1, ?_⟩
        rw [h4.2.2.1, h3.2.2.1]; exact List.prefix_append _ _
    · cases hst

/-- How the server task can end. -/
theorem step_death {sv : Service σ C} {s s' : State σ C} {l : Label} (ha : LoopAlive s)
    (hst : step sv s l = some s') (hd : ¬ LoopAlive s') :
    (l = .takePanic ∨ l = .methodPanic ∨
      (l = .loopExit ∧ s.held = false ∧ s.queue = [] ∧ ∀ c, c < s.nconn → (s.conns c).alive = false) ∨
      (l = .methodDone ∧ ∃ c id call i, s.loop = .busy c id call i ∧ (s.conns c).alive = false)) ∧
    s'.subs = [] ∧ ∀ t, s'.tasks t =
      if t ∈ s.subs.map (·.2) then (s.tasks t).abort else s.tasks t := by
  cases step_Step hst <;> first
    | exact absurd ha hd
    | exact absurd (alive_of_idle rfl) hd
    | exact absurd (alive_of_idle ‹_›) hd
    | exact absurd (alive_of_busy rfl) hd
    | skip
  case takePanic => exact ⟨.inl rfl, rfl, kill_tasks s⟩
  case methodPanic => exact ⟨.inr (.inl rfl), rfl, kill_tasks s⟩
  case loopExit hl hq hh hc => exact ⟨.inr (.inr (.inl ⟨rfl, hh, hq, hc⟩)), rfl, kill_tasks s⟩
  case methodFail c id call i hl h =>
    exact ⟨.inr (.inr (.inr ⟨rfl, c, id, call, i, hl, h⟩)), rfl, fun t => kill_tasks _ t⟩

/-- The table entry of an id nobody mentions does not change. -/
theorem active_untouched (sv : Service σ C) (b : σ) (n : Nat) (m : Nat → Option Nat)
    (l : List (Nat × Input)) (id : Nat)
    (h : ∀ p ∈ l, p.2 ≠ .ok (.cancelStream id) ∧ ∀ v, p.2 ≠ .ok (.exec id v)) :
    active sv b n m l id = m id := by
  induction l generalizing b n m with
  | nil => rfl
  | cons p l ih =>
    obtain ⟨c, i⟩ := p
    have h0 := h (c, i) List.mem_cons_self
    have ih' := fun b n m => ih b n m (fun q hq => h q (List.mem_cons_of_mem _ hq))
    simp only [active]
    cases hst : starts sv b c i with
    | some st =>
      simp only
      rw [ih', if_neg]
      intro e
      unfold starts at hst
      split at hst
      · split at hst
        · split at hst
          · simp at hst; subst hst; subst e; exact h0.2 _ rfl
          · simp at hst
        · simp at hst
      · simp at hst
    | none =>
      rcases i with r | ⟨id', v⟩ | id'
      · exact ih' _ _ _
      · exact ih' _ _ _
      · simp only
        rw [ih', if_neg]
        rintro rfl
        exact h0.1 rfl

theorem active_append (sv : Service σ C) (b : σ) (n : Nat) (m : Nat → Option Nat)
    (l₁ l₂ : List (Nat × Input)) :
    active sv b n m (l₁ ++ l₂) =
      active sv (replay sv b l₁) (n + (streams sv b l₁).length) (active sv b n m l₁) l₂ := by
  induction l₁ generalizing b n m with
  | nil => simp [active, replay, streams]
  | cons p l ih =>
    obtain ⟨c', i'⟩ := p
    simp only [List.cons_append, active, replay, streams]
    split
    · rename_i st hst
      rw [ih, hst]
      simp only [Option.toList, List.length_append, List.length_cons, List.length_nil]
      rw [Nat.zero_add, Nat.add_assoc]
    · rename_i hst
      rw [ih, hst]; simp
    · rename_i hst
      rw [ih, hst]; simp

/-- Errors waiting in the request channel carry no id. -/
theorem inv_err {sv : Service σ C} {b : σ} {s : State σ C} (h : Reachable sv b s) :
    ∀ c r, (c, Except.error r) ∈ s.accepted → ∃ e, r = .error none e := by
  refine Reachable.induct (P := fun s => ∀ c r, (c, Except.error r) ∈ s.accepted →
    ∃ e, r = .error none e) ?_ ?_ h
  · intro c r h; simp [init] at h
  · intro s l s' hr ih hst c r hm
    by_cases ha : LoopAlive s
    · rw [(step_arrivals hst).1 ha] at hm
      rcases List.mem_append.1 hm with hm | hm
      · exact ih c r hm
      · cases l with
        | frame c' f =>
          cases f with
          | other => simp [arrivals] at hm
          | text doc =>
            simp only [arrivals, List.mem_singleton, Prod.mk.injEq] at hm
            obtain ⟨_, hm⟩ := hm
            unfold frameInput at hm
            split at hm
            · injection hm with hm; exact ⟨_, hm⟩
            · split at hm
              · cases hm
              · injection hm with hm; exact ⟨_, hm⟩
        | _ => simp [arrivals] at hm
    · rw [(step_arrivals hst).2 ha] at hm; exact ih c r hm

end Verif.Server
