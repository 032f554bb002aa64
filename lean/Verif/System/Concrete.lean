import Verif.System.Drive
import Verif.Rpc.Demo

/-!
# The composed system: computing with concrete histories (for witnesses and examples)
-/

namespace Verif.Server

/-- Decides `LoopAlive`. -/
def isAlive {σ C : Type} (x : Server.State σ C) : Bool :=
  match x.loop with
  | .dead => false
  | _ => true

theorem isAlive_iff {σ C : Type} (x : Server.State σ C) :
    isAlive x = true ↔ ServerSpec.LoopAlive x := by
  unfold isAlive ServerSpec.LoopAlive
  split <;> simp_all

end Verif.Server

namespace Verif.System
open Verif Verif.ServerSpec Verif.SystemSpec

variable {σ C : Type}

/-- Decides `Calm` along the history. -/
def calmB (sv : Service σ C) : State σ C → List Label → Bool
  | _, [] => true
  | s, l :: ls => !l.isFailure &&
      (match l with
       | .endDown i k => (s.clients i).socket.all (· == k)
       | _ => true) &&
      match step sv s l with
      | some s' => calmB sv s' ls
      | none => true

theorem calmB_sound (sv : Service σ C) : ∀ (ls : List Label) (s : State σ C),
    calmB sv s ls = true → Calm sv s ls := by
  intro ls
  induction ls with
  | nil => intro s _; trivial
  | cons l ls ih =>
    intro s h
    simp only [calmB, Bool.and_eq_true, Bool.not_eq_true'] at h
    obtain ⟨⟨h1, h2⟩, h3⟩ := h
    refine ⟨h1, ?_, ?_⟩
    · rintro i k rfl k' hk
      simpa [hk] using h2
    · intro s' hs
      rw [hs] at h3
      exact ih s' h3

/-- Decides that a label involves only generated clients; `subscribe` is checked by computing. -/
def generatedB (sv : Service σ C) : Label → Bool
  | .foreignConnect => false
  | .client _ (.subscribe ns m a) =>
      match sv.decode (WireSpec.callValue ns m (a.map Json.toValue)) with
      | .ok call => sv.isStream call
      | .error _ => true
  | _ => true

theorem generatedB_sound {sv : Service σ C} {l : Label} (h : generatedB sv l = true) :
    Label.generated sv l := by
  unfold generatedB at h
  split at h
  · cases h
  · simp only [Label.generated]
    intro call hc
    rw [hc] at h; exact h
  · rename_i h1 h2
    unfold Label.generated
    split
    · exact absurd rfl h1
    · exact absurd rfl (h2 _ _ _ _)
    · trivial

/-- A history that meets the hypotheses of the liveness theorems. -/
def niceB (sv : Service σ C) (b : σ) (ls : List Label) : Bool :=
  calmB sv (init b) ls && ls.all (fun l => Label.harmless l && generatedB sv l)

theorem niceB_sound {sv : Service σ C} {b : σ} {ls : List Label} (h : niceB sv b ls = true) :
    Calm sv (init b) ls ∧ ∀ l ∈ ls, Label.harmless l = true ∧ Label.generated sv l := by
  simp only [niceB, Bool.and_eq_true, List.all_eq_true] at h
  exact ⟨calmB_sound _ _ _ h.1, fun l hl => ⟨(h.2 l hl).1, generatedB_sound (h.2 l hl).2⟩⟩

/-- Each step makes at most one call. -/
theorem step_calls_length {sv : Service σ C} {s s' : State σ C} {l : Label}
    (h : step sv s l = some s') (i : Nat) :
    (s'.clients i).calls.length ≤ (s.clients i).calls.length + 1 := by
  have hset : ∀ j l x, Client.step (s.clients j) l = some x →
      ((s.setClient j x).clients i).calls.length ≤ (s.clients i).calls.length + 1 := by
    intro j l x hx
    by_cases e : i = j
    · subst e
      rw [setClient_self]
      have := (Client.step_history hx).1
      have hl : (ClientSpec.callsOf [l]).length ≤ 1 := by cases l <;> simp [ClientSpec.callsOf]
      have h2 := congrArg List.length this
      simp only [List.length_map, List.length_append] at h2
      omega
    · rw [setClient_ne _ _ e]; omega
  cases step_Move h with
  | client j l x hx hl => exact hset j l x hx
  | server => exact Nat.le_succ _
  | foreign => exact Nat.le_succ _
  | accept => exact Nat.le_succ _
  | deliver => exact Nat.le_succ _
  | respond c j k r x ho hm hx => exact hset j _ x hx

theorem run_calls_length {sv : Service σ C} {s s' : State σ C} {ls : List Label}
    (h : run sv s ls = some s') (i : Nat) :
    (s'.clients i).calls.length ≤ (s.clients i).calls.length + ls.length := by
  induction ls generalizing s with
  | nil => simp only [run, Option.some.injEq] at h; subst h; exact Nat.le_refl _
  | cons l ls ih =>
    simp only [run] at h
    cases h1 : step sv s l with
    | none => rw [h1] at h; cases h
    | some s1 =>
      rw [h1] at h
      have := ih h
      have := step_calls_length h1 i
      simp only [List.length_cons]
      omega

/-- The state of a derived backend keeps its length. -/
theorem exec1_length {S V : Type} (d : BackendDef S V) (st : List S) (inp : Server.Input) :
    (exec1 d.service st inp).1.length = st.length := by
  have h1 : ∀ call, (d.service.runStream st call).1.length = st.length := by
    intro call
    simp only [BackendDef.service, runStream]
    split
    · split <;> simp
    · rfl
  have h2 : ∀ call, (d.service.runMethod st call).1.length = st.length := by
    intro call
    simp only [BackendDef.service, runMethod]
    split
    · split <;> simp
    · rfl
  unfold exec1
  split
  · rfl
  · rfl
  · split
    · rfl
    · rename_i call _
      split
      · exact h1 call
      · have := h2 call
        split <;> rename_i e <;> rw [e] at this <;> exact this

theorem replay_length {S V : Type} (d : BackendDef S V) (l : List (Nat × Server.Input)) :
    ∀ st : List S, (replay d.service st l).length = st.length := by
  induction l with
  | nil => intro st; rfl
  | cons p l ih =>
    intro st
    obtain ⟨c, i⟩ := p
    simp only [replay]
    rw [ih, exec1_length]

/-- Routine steps make no calls. -/
theorem routine_calls {sv : Service σ C} {s s' : State σ C} {l : Label}
    (h : step sv s l = some s') {i c : Nat} (hl : Label.routine i c l) (j : Nat) :
    (s'.clients j).calls.length ≤ (s.clients j).calls.length := by
  have hset : ∀ i l x, Client.step (s.clients i) l = some x → ClientSpec.callsOf [l] = [] →
      ((s.setClient i x).clients j).calls.length ≤ (s.clients j).calls.length := by
    intro i l x hx hl
    by_cases e : j = i
    · subst e
      rw [setClient_self]
      have := (Client.step_history hx).1
      have h2 := congrArg List.length this
      rw [hl] at h2
      simp only [List.length_map, List.length_append, List.length_nil] at h2
      omega
    · rw [setClient_ne _ _ e]; exact Nat.le_refl _
  rcases hl with rfl | rfl | rfl | rfl | rfl | rfl
  · simp only [step] at h
    split at h
    · split at h
      · split at h
        · cases h; exact Nat.le_refl _
        · cases h
      · cases h
    · cases h
  · obtain ⟨x, hx, rfl⟩ := map_some h; exact Nat.le_refl _
  · obtain ⟨x, hx, rfl⟩ := map_some h; exact Nat.le_refl _
  · obtain ⟨x, hx, rfl⟩ := map_some h; exact Nat.le_refl _
  · simp only [step] at h
    split at h
    · split at h
      · split at h
        · rename_i x hx; cases h; exact hset _ _ x hx rfl
        · cases h
      · cases h
    · cases h
  · obtain ⟨x, hx, rfl⟩ := map_some h; exact hset _ _ x hx rfl

/-- What is transmitted stays transmitted. -/
theorem run_sent {x y : Client.State} {cl : List Client.Label} (hr : Client.Reachable x)
    (h : Client.run x cl = some y) : x.sent <+: y.sent := by
  induction cl generalizing x with
  | nil => simp only [Client.run, Option.some.injEq] at h; subst h; exact List.prefix_refl _
  | cons l ls ih =>
    simp only [Client.run] at h
    cases h1 : Client.step x l with
    | none => rw [h1] at h; cases h
    | some s1 => rw [h1] at h; exact (client_sent hr h1).trans (ih (hr.step h1) h)

/-- Decides `Quiet` for connection `c` of socket `k`. -/
def quietB (s : State σ C) (i c k : Nat) : Bool :=
  s.up c == (sentOn (s.clients i) k).length &&
  (match s.server.loop with | .idle => true | _ => false) && s.server.queue.isEmpty &&
  (s.server.conns c).chan.isEmpty && s.down c == (s.server.conns c).written.length &&
  (match (s.clients i).phase with | .idle => true | _ => false)

theorem quietB_sound {s : State σ C} {i c k : Nat} (ho : s.owner c = some (i, k))
    (h : quietB s i c k = true) : Quiet s i c := by
  simp only [quietB, Bool.and_eq_true, beq_iff_eq, List.isEmpty_iff] at h
  obtain ⟨⟨⟨⟨⟨h1, h2⟩, h3⟩, h4⟩, h5⟩, h6⟩ := h
  refine ⟨?_, ?_, h3, h4, h5, ?_⟩
  · intro k' ho'; rw [ho] at ho'; cases ho'; exact h1
  · split at h2
    · assumption
    · cases h2
  · split at h6
    · assumption
    · cases h6

/-- An initial part of the data of a stream is the data of its first items. -/
theorem itemData_prefix {items : Nat → Option (Except SerdeErr Json)} {n : Nat} {l : List Json}
    (h : l <+: itemData items n) : ∃ n', n' ≤ n ∧ l = itemData items n' := by
  induction n with
  | zero =>
    simp only [itemData, List.prefix_nil] at h
    exact ⟨0, Nat.le_refl _, h⟩
  | succ n ih =>
    simp only [itemData] at h
    have hcases : l <+: itemData items n ∨ ∃ t, t <+: (match items n with
        | some (.ok d) => [d]
        | _ => []) ∧ l = itemData items n ++ t := by
      obtain ⟨u, hu⟩ := h
      rcases List.append_eq_append_iff.1 hu with ⟨w, h1, h2⟩ | ⟨w, h1, h2⟩
      · exact .inl ⟨w, h1.symm⟩
      · exact .inr ⟨w, ⟨u, h2.symm⟩, h1⟩
    rcases hcases with h' | ⟨t, ht, hl⟩
    · obtain ⟨n', h1, h2⟩ := ih h'
      exact ⟨n', Nat.le_succ_of_le h1, h2⟩
    · split at ht
      · rename_i d hd
        cases t with
        | nil =>
          rw [List.append_nil] at hl
          exact ⟨n, Nat.le_succ _, hl⟩
        | cons x t =>
          obtain ⟨u, hu⟩ := ht
          simp only [List.cons_append, List.cons.injEq] at hu
          obtain ⟨rfl, hu⟩ := hu
          have : t = [] := (List.append_eq_nil_iff.1 hu).1
          subst this
          exact ⟨n + 1, Nat.le_refl _, by rw [hl]; simp [itemData, hd]⟩
      · rw [List.prefix_nil] at ht
        subst ht
        rw [List.append_nil] at hl
        exact ⟨n, Nat.le_succ _, hl⟩

/-- The demo backend's `add` always returns something. -/
theorem add_returns (st : List Nat) (h : st.length = 1) (id : Nat) :
    ∃ d, Returns Demo.sv st (requestOf id (lit "Counter") (lit "add") [.num (.int 2)]) d := by
  match st, h with
  | [n], _ =>
    exact ⟨.num (.int ↑(n + 2)), id, _, ⟨0, 0, [2]⟩, rfl, by rfl, rfl, rfl⟩

end Verif.System
