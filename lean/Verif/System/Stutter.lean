import Verif.System.FairStream

/-!
# Executions after which nothing happens any more (for witnesses and examples)
-/

namespace Verif.System
open Verif Verif.ServerSpec Verif.SystemSpec

variable {σ C : Type}

/-- The states of a history, the last one for ever. -/
def trace (sv : Service σ C) : State σ C → List Label → Nat → State σ C
  | s, [], _ => s
  | s, _ :: _, 0 => s
  | s, l :: ls, n + 1 =>
    match step sv s l with
    | some s' => trace sv s' ls n
    | none => s

/-- The labels of a history, then nothing. -/
def labels (ls : List Label) (n : Nat) : Option Label := ls[n]?

theorem trace_zero (sv : Service σ C) (s : State σ C) (ls : List Label) : trace sv s ls 0 = s := by
  cases ls <;> rfl

theorem trace_next {sv : Service σ C} : ∀ {ls : List Label} {s s' : State σ C},
    run sv s ls = some s' → ∀ n,
    (labels ls n = none ∧ trace sv s ls (n + 1) = trace sv s ls n) ∨
    ∃ l, labels ls n = some l ∧ step sv (trace sv s ls n) l = some (trace sv s ls (n + 1)) := by
  intro ls
  induction ls with
  | nil => intro s s' _ n; exact .inl ⟨rfl, rfl⟩
  | cons l ls ih =>
    intro s s' h n
    simp only [run] at h
    cases hs : step sv s l with
    | none => rw [hs] at h; cases h
    | some s1 =>
      rw [hs] at h
      cases n with
      | zero =>
        refine .inr ⟨l, rfl, ?_⟩
        simp only [trace, hs, trace_zero]
      | succ n =>
        have := ih h n
        simp only [trace, hs, labels, List.getElem?_cons_succ] at this ⊢
        exact this

theorem trace_end {sv : Service σ C} : ∀ {ls : List Label} {s s' : State σ C},
    run sv s ls = some s' → ∀ n, ls.length ≤ n → trace sv s ls n = s' := by
  intro ls
  induction ls with
  | nil => intro s s' h n _; simp only [run, Option.some.injEq] at h; exact h
  | cons l ls ih =>
    intro s s' h n hn
    simp only [run] at h
    cases hs : step sv s l with
    | none => rw [hs] at h; cases h
    | some s1 =>
      rw [hs] at h
      cases n with
      | zero => simp at hn
      | succ n =>
        simp only [trace, hs]
        exact ih h n (by simpa using hn)

theorem trace_execution {sv : Service σ C} {b : σ} {ls : List Label} {s : State σ C}
    (h : run sv (init b) ls = some s) : Execution sv b (trace sv (init b) ls) (labels ls) :=
  ⟨trace_zero _ _ _, trace_next h⟩

/-- Whatever is checked at the first moments holds at all. -/
theorem trace_all {sv : Service σ C} {b : σ} {ls : List Label} {s : State σ C}
    (h : run sv (init b) ls = some s) {p : State σ C → Bool}
    (hp : (List.range (ls.length + 1)).all (fun n => p (trace sv (init b) ls n)) = true) (n : Nat) :
    p (trace sv (init b) ls n) = true := by
  rw [List.all_eq_true] at hp
  by_cases e : n ≤ ls.length
  · exact hp n (List.mem_range.2 (by omega))
  · have := hp ls.length (List.mem_range.2 (by omega))
    rw [trace_end h _ (Nat.le_refl _)] at this
    rw [trace_end h _ (by omega)]; exact this

/-- None of what fairness requires can happen. -/
def settledB (sv : Service σ C) (s : State σ C) (i : Nat) : Bool :=
  (match (s.clients i).phase with
   | .idle => true
   | _ => false) &&
  (step sv s (.server .take)).isNone && (step sv s (.server .methodDone)).isNone &&
  (List.range (s.clients i).nsock).all (fun k => (step sv s (.accept i k)).isNone) &&
  (List.range s.server.nconn).all (fun c => (step sv s (.deliver c)).isNone &&
    (step sv s (.server (.flush c))).isNone && (step sv s (.opened c)).isNone &&
    (step sv s (.respond c)).isNone)

theorem not_enabled {sv : Service σ C} {s : State σ C} {l : Label}
    (h : (step sv s l).isNone = true) : ¬ Enabled sv s l := by
  rintro ⟨s', e⟩
  rw [e] at h; cases h

theorem weak_of_end {sv : Service σ C} {b : σ} {ls : List Label} {s : State σ C} {l : Label}
    (h : run sv (init b) ls = some s) (hl : ¬ Enabled sv s l) :
    WeaklyFair sv (trace sv (init b) ls) (labels ls) l := by
  intro n hen
  have := hen (n + ls.length) (by omega)
  rw [trace_end h _ (by omega)] at this
  exact absurd this hl

theorem strong_of_end {sv : Service σ C} {b : σ} {ls : List Label} {s : State σ C} {l : Label}
    (h : run sv (init b) ls = some s) (hl : ¬ Enabled sv s l) :
    StronglyFair sv (trace sv (init b) ls) (labels ls) l := by
  intro n hen
  obtain ⟨m, hm, this⟩ := hen (n + ls.length) (by omega)
  rw [trace_end h _ (by omega)] at this
  exact absurd this hl

theorem settled_fair {sv : Service σ C} {b : σ} {ls : List Label} {s : State σ C} {i : Nat}
    (h : run sv (init b) ls = some s) (hs : settledB sv s i = true) :
    Fair sv (trace sv (init b) ls) (labels ls) i := by
  simp only [settledB, Bool.and_eq_true, List.all_eq_true, List.mem_range] at hs
  obtain ⟨⟨⟨⟨hph, ht⟩, hd⟩, hk⟩, hc⟩ := hs
  have hr : Reachable sv b s := ⟨_, h⟩
  have hown : ∀ c, s.server.nconn ≤ c → s.owner c = none := by
    intro c hc
    cases ho : s.owner c with
    | none => rfl
    | some ik => exact absurd ((inv_own hr).lt c ik ho) (by omega)
  refine ⟨fun k => weak_of_end h ?_, fun c => weak_of_end h ?_, weak_of_end h (not_enabled ht),
    weak_of_end h (not_enabled hd), fun c => weak_of_end h ?_, fun c => strong_of_end h ?_,
    fun c => strong_of_end h ?_, fun n => ⟨n + ls.length, by omega, ?_⟩⟩
  · by_cases e : k < (s.clients i).nsock
    · exact not_enabled (hk k e)
    · apply not_enabled
      have := (Client.inv_conn (hr.client i)).fresh k (by omega)
      simp only [step, this, Client.noSock]
      simp
  · by_cases e : c < s.server.nconn
    · exact not_enabled (hc c e).1.1.1
    · exact not_enabled (by simp only [step, hown c (by omega), Option.isNone_none])
  · by_cases e : c < s.server.nconn
    · exact not_enabled (hc c e).1.1.2
    · apply not_enabled
      have := (Server.inv_fresh hr.server).2.1 c (by omega)
      simp only [step, isInternal, if_true, State.serverStep, Server.step, this, Server.deadConn]
      simp
  · by_cases e : c < s.server.nconn
    · exact not_enabled (hc c e).1.2
    · exact not_enabled (by simp only [step, hown c (by omega), Option.isNone_none])
  · by_cases e : c < s.server.nconn
    · exact not_enabled (hc c e).2
    · exact not_enabled (by simp only [step, hown c (by omega), Option.isNone_none])
  · rw [trace_end h _ (by omega)]
    split at hph
    · assumption
    · cases hph

theorem labels_mem {ls : List Label} {n : Nat} {l : Label} (h : labels ls n = some l) : l ∈ ls :=
  List.mem_of_getElem? h

theorem trace_reach {sv : Service σ C} {b : σ} {ls : List Label} {s : State σ C}
    (h : run sv (init b) ls = some s) (n : Nat) :
    ∃ ls', run sv (init b) ls' = some (trace sv (init b) ls n) ∧ ls'.length ≤ ls.length := by
  have hE := trace_execution h
  have hlen : ∀ n, (labelsTo (labels ls) n).length ≤ ls.length := by
    have : ∀ n, labelsTo (labels ls) n = ls.take n := by
      intro n
      induction n with
      | zero => simp [labelsTo]
      | succ n ih => rw [labelsTo, ih, List.take_succ]; rfl
    intro n; rw [this]; simp; omega
  exact ⟨_, hE.run n, hlen n⟩

theorem trace_peaceful {sv : Service σ C} {b : σ} {ls : List Label} {s : State σ C}
    (h : run sv (init b) ls = some s) (hlen : ls.length ≤ 2 ^ 53)
    (hl : ls.all (fun l => !l.isFailure && Label.harmless l && generatedB sv l) = true) :
    Peaceful sv (trace sv (init b) ls) (labels ls) := by
  refine ⟨fun n l hn => ?_, fun n i => ?_⟩
  · have := List.all_eq_true.1 hl l (labels_mem hn)
    simp only [Bool.and_eq_true, Bool.not_eq_true'] at this
    exact ⟨this.1.1, this.1.2, generatedB_sound this.2⟩
  · obtain ⟨ls', h', hle⟩ := trace_reach h n
    have := run_calls_length h' i
    have h0 : ((init b : State σ C).clients i).calls.length = 0 := rfl
    rw [h0] at this
    omega

/-- Decides `CalmForever`. -/
def calmTraceB (sv : Service σ C) (b : σ) (ls : List Label) : Bool :=
  (List.range ls.length).all (fun n => match labels ls n with
    | some (.endDown i k) => ((trace sv (init b) ls n).clients i).socket.all (· == k)
    | _ => true)

theorem trace_calm {sv : Service σ C} {b : σ} {ls : List Label} (h : calmTraceB sv b ls = true) :
    CalmForever (trace sv (init b) ls) (labels ls) := by
  intro n i k hn k' hk
  have hlt : n < ls.length := (List.getElem?_eq_some_iff.1 hn).1
  have := List.all_eq_true.1 h n (List.mem_range.2 hlt)
  rw [hn] at this
  simpa [hk] using this

end Verif.System
