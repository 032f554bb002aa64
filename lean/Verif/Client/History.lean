import Verif.Client.InvMsg

/-!
# How the recorded histories follow the labels (proof helper)
-/

namespace Verif.Client
open Verif Verif.ClientSpec

/-- What a message calls. -/
def callOf (m : Msg) : Str × Str × List Json := (m.ns, m.method, m.args)

theorem callsOf_append (a b : List Label) : callsOf (a ++ b) = callsOf a ++ callsOf b := by
  induction a with
  | nil => rfl
  | cons l ls ih => cases l <;> simp [callsOf, ih]

theorem messagesOf_append (a b : List Label) : messagesOf (a ++ b) = messagesOf a ++ messagesOf b := by
  induction a with
  | nil => rfl
  | cons l ls ih =>
    cases l with
    | message k m => cases m <;> simp [messagesOf, ih]
    | _ => simp [messagesOf, ih]

theorem step_history {s s' : State} {l : Label} (h : step s l = some s') :
    s'.calls.map callOf = s.calls.map callOf ++ callsOf [l] ∧
    s'.received = s.received ++ messagesOf [l] := by
  cases step_Step h with
  | request ns m a =>
    unfold State.request
    simp [State.issue, State.newMsg, callsOf, messagesOf, callOf]
  | subscribe ns m a =>
    unfold State.subscribe
    simp [State.issue, State.newMsg, callsOf, messagesOf, callOf]
  | attach => simp [callsOf, messagesOf]
  | detach => simp [callsOf, messagesOf]
  | opened k =>
    rw [State.foldl_openAndSend_calls, State.foldl_openAndSend_received]
    simp [callsOf, messagesOf, State.onOpen]
  | failed => simp [callsOf, messagesOf, State.onError]
  | clean => simp [callsOf, messagesOf, State.goneClean]
  | closing => simp [callsOf, messagesOf, State.beginClose]
  | method => simp [callsOf, messagesOf, State.receive]
  | stream => simp [callsOf, messagesOf, State.receive]
  | error => simp [callsOf, messagesOf]
  | garbage => simp [callsOf, messagesOf]
  | visitEnd => simp [callsOf, messagesOf]
  | visit => simp [callsOf, messagesOf]
  | visitThrow => simp [callsOf, messagesOf]
  | timer => simp [callsOf, messagesOf]

theorem run_history {s s' : State} {ls : List Label} (h : run s ls = some s') :
    s'.calls.map callOf = s.calls.map callOf ++ callsOf ls ∧
    s'.received = s.received ++ messagesOf ls := by
  induction ls generalizing s with
  | nil => simp only [run, Option.some.injEq] at h; subst h; simp [callsOf, messagesOf]
  | cons l ls ih =>
    simp only [run] at h
    cases h1 : step s l with
    | none => rw [h1] at h; cases h
    | some s1 =>
      rw [h1] at h
      obtain ⟨a, b⟩ := ih h
      obtain ⟨c, d⟩ := step_history h1
      rw [a, b, c, d]
      have e : l :: ls = [l] ++ ls := rfl
      rw [e, callsOf_append, messagesOf_append]
      simp

theorem run_reachable {s s' : State} {ls : List Label} (hr : Reachable s) (h : run s ls = some s') :
    Reachable s' := by
  obtain ⟨l0, h0⟩ := hr
  exact ⟨l0 ++ ls, by rw [run_append, h0]; exact h⟩

/-- An existing subscription keeps its kind, id and start. -/
theorem step_sub {s s' : State} {l : Label} (h : step s l = some s') {k : Nat} (hk : k < s.nsub) :
    k < s'.nsub ∧ (s'.subs k).kind = (s.subs k).kind ∧ (s'.subs k).id = (s.subs k).id ∧
    (s'.subs k).from_ = (s.subs k).from_ := by
  have hne : k ≠ s.nsub := Nat.ne_of_lt hk
  cases step_Step h with
  | request ns m a =>
    unfold State.request
    simp only [State.openAndSend_nsub, State.openAndSend_subs]
    simp only [State.addSub, State.issue, upd_ne _ _ hne]
    exact ⟨Nat.lt_succ_of_lt hk, by trivial, by trivial, by trivial⟩
  | subscribe ns m a =>
    unfold State.subscribe
    simp only [State.openAndSend_nsub, State.openAndSend_subs]
    exact ⟨hk, rfl, rfl, rfl⟩
  | attach =>
    simp only [State.addSub, upd_ne _ _ hne]
    exact ⟨Nat.lt_succ_of_lt hk, by trivial, by trivial, by trivial⟩
  | detach j =>
    rw [State.unsubscribe_subs, State.unsubscribe_nsub]
    by_cases e : k = j
    · subst e; simp [hk]
    · simp [upd_ne _ _ e, hk]
  | opened j =>
    rw [State.foldl_openAndSend_nsub, State.foldl_openAndSend_subs]
    exact ⟨hk, rfl, rfl, rfl⟩
  | failed => simp [State.onError, hk]
  | clean => simp [State.goneClean, hk]
  | closing => simp [State.beginClose, hk]
  | method => exact ⟨hk, rfl, rfl, rfl⟩
  | stream => exact ⟨hk, rfl, rfl, rfl⟩
  | error => exact ⟨hk, rfl, rfl, rfl⟩
  | garbage => exact ⟨hk, rfl, rfl, rfl⟩
  | visitEnd id d c se =>
    obtain ⟨_, a, b, c⟩ := finish_got { s with phase := .idle } se k
    exact ⟨by simpa using hk, a, b, c⟩
  | visit id d c se j =>
    obtain ⟨a, b, _, e⟩ := call_sub s j id k d
    exact ⟨by simpa using hk, a, b, e⟩
  | visitThrow id d c se j =>
    obtain ⟨_, a, b, e⟩ := finish_got { (s.call j id d).1 with phase := .idle, threw := true } se k
    obtain ⟨a', b', _, e'⟩ := call_sub s j id k d
    exact ⟨by simpa using hk, a.trans a', b.trans b', e.trans e'⟩
  | timer => simp [hk]

theorem run_sub {s s' : State} {ls : List Label} (h : run s ls = some s') {k : Nat}
    (hk : k < s.nsub) :
    k < s'.nsub ∧ (s'.subs k).kind = (s.subs k).kind ∧ (s'.subs k).id = (s.subs k).id ∧
    (s'.subs k).from_ = (s.subs k).from_ := by
  induction ls generalizing s with
  | nil => simp only [run, Option.some.injEq] at h; subst h; exact ⟨hk, rfl, rfl, rfl⟩
  | cons l ls ih =>
    simp only [run] at h
    cases h1 : step s l with
    | none => rw [h1] at h; cases h
    | some s1 =>
      rw [h1] at h
      obtain ⟨a, b, c, d⟩ := step_sub h1 hk
      obtain ⟨a', b', c', d'⟩ := ih h a
      exact ⟨a', b'.trans b, c'.trans c, d'.trans d⟩

/-- Deleted subscriptions are frozen. -/
theorem step_frozen {s s' : State} {l : Label} (hr : Reachable s) (h : step s l = some s') {k : Nat}
    (hk : k < s.nsub) (hu : (s.subs k).until_ ≠ none) :
    (s'.subs k).until_ ≠ none ∧ (s'.subs k).got = (s.subs k).got := by
  have hne : k ≠ s.nsub := Nat.ne_of_lt hk
  have hlv := inv_live hr
  have hnl : k ∉ s.live := fun hm => hu ((hlv.mem k).1 hm).2
  have fin : ∀ (l : List Nat) (t : State), (t.subs k).until_ ≠ none →
      ((t.finish l).subs k).until_ ≠ none := by
    intro l
    induction l with
    | nil => intro t h; exact h
    | cons j l ih =>
      intro t h
      refine ih _ ?_
      rw [State.unsubscribe_subs]
      by_cases e : k = j
      · subst e; simp
      · rw [upd_ne _ _ e]; exact h
  cases step_Step h with
  | request ns m a =>
    unfold State.request
    simp only [State.openAndSend_subs]
    simp only [State.addSub, State.issue, upd_ne _ _ hne]
    exact ⟨hu, by trivial⟩
  | subscribe ns m a =>
    unfold State.subscribe
    simp only [State.openAndSend_subs]
    exact ⟨hu, rfl⟩
  | attach =>
    simp only [State.addSub, upd_ne _ _ hne]
    exact ⟨hu, by trivial⟩
  | detach j =>
    rw [State.unsubscribe_subs]
    by_cases e : k = j
    · subst e; simp
    · simp [upd_ne _ _ e, hu]
  | opened j =>
    rw [State.foldl_openAndSend_subs]
    exact ⟨hu, rfl⟩
  | failed => simp [State.onError, hu]
  | clean => simp [State.goneClean, hu]
  | closing => simp [State.beginClose, hu]
  | method => exact ⟨hu, rfl⟩
  | stream => exact ⟨hu, rfl⟩
  | error => exact ⟨hu, rfl⟩
  | garbage => exact ⟨hu, rfl⟩
  | visitEnd id d c se =>
    exact ⟨fin se { s with phase := .idle } hu, (finish_got { s with phase := .idle } se k).1⟩
  | visit id d c se j hp hn =>
    have e : k ≠ j := by rintro rfl; exact hnl (nextSub_some hlv.sorted hn).1
    simp only [call_subs_other s id d e]
    exact ⟨hu, trivial⟩
  | visitThrow id d c se j hp hn =>
    have e : k ≠ j := by rintro rfl; exact hnl (nextSub_some hlv.sorted hn).1
    refine ⟨fin se _ ?_, ?_⟩
    · show ((s.call j id d).1.subs k).until_ ≠ none
      rw [call_subs_other s id d e]; exact hu
    · rw [(finish_got _ se k).1]
      show ((s.call j id d).1.subs k).got = _
      rw [call_subs_other s id d e]
  | timer => simp [hu]

theorem run_frozen {s s' : State} {ls : List Label} (hr : Reachable s) (h : run s ls = some s')
    {k : Nat} (hk : k < s.nsub) (hu : (s.subs k).until_ ≠ none) :
    (s'.subs k).got = (s.subs k).got := by
  induction ls generalizing s with
  | nil => simp only [run, Option.some.injEq] at h; subst h; rfl
  | cons l ls ih =>
    simp only [run] at h
    cases h1 : step s l with
    | none => rw [h1] at h; cases h
    | some s1 =>
      rw [h1] at h
      obtain ⟨a, b⟩ := step_frozen hr h1 hk hu
      rw [ih (hr.step h1) h (step_sub h1 hk).1 a, b]

/-- The messages received since `s₁` (its unfinished one included). -/
theorem received_since {s₁ s₂ s' : State} {ls : List Label} (hrun : run s₂ ls = some s')
    (hrec : s₂.received = s₁.received)
    (hflight : ∀ id d c se, s₁.phase = .delivering id d c se →
      s₁.received.getLast? = some (id, d)) :
    s'.received.drop s₁.doneCount = inFlight s₁ ++ messagesOf ls := by
  rw [(run_history hrun).2, hrec]
  cases hp : s₁.phase with
  | idle => simp [State.doneCount, inFlight, hp]
  | delivering id d c se =>
    have hl := hflight _ _ _ _ hp
    rw [List.getLast?_eq_some_iff] at hl
    obtain ⟨pre, hpre⟩ := hl
    simp [State.doneCount, inFlight, hp, hpre]

/-- What is dropped stays dropped. -/
theorem step_dropped {s s' : State} {l : Label} (h : step s l = some s') :
    s.dropped <+: s'.dropped := by
  cases step_Step h with
  | request ns m a => unfold State.request; simp [State.issue]
  | subscribe ns m a => unfold State.subscribe; simp [State.issue]
  | opened k => rw [State.foldl_openAndSend_dropped]; simp [State.onOpen]
  | failed => simp [State.onError]
  | clean => simp [State.goneClean]
  | closing => simp [State.beginClose]
  | attach => simp
  | method => simp [State.receive]
  | stream => simp [State.receive]
  | error => simp
  | garbage => simp
  | detach => simp
  | visitEnd => simp
  | visit => simp
  | visitThrow => simp
  | timer => simp

theorem run_dropped {s s' : State} {ls : List Label} (h : run s ls = some s') :
    s.dropped <+: s'.dropped := by
  induction ls generalizing s with
  | nil => simp only [run, Option.some.injEq] at h; subst h; exact List.prefix_refl _
  | cons l ls ih =>
    simp only [run] at h
    cases h1 : step s l with
    | none => rw [h1] at h; cases h
    | some s1 => rw [h1] at h; exact (step_dropped h1).trans (ih h)

/-- Only failed connections drop messages. -/
theorem nothing_dropped {ls : List Label} {s : State} (h : run init ls = some s) :
    (∀ k, Label.closed k true ∉ ls) → s.dropped = [] := by
  refine run_induct (P := fun ls s => (∀ k, Label.closed k true ∉ ls) → s.dropped = []) ?_ ?_ h
  · intro _; rfl
  intro ls l s s' hrun ih hst hn
  have h := ih (fun k hk => hn k (List.mem_append_left _ hk))
  cases step_Step hst with
  | request ns m a => unfold State.request; simp [State.issue, h]
  | subscribe ns m a => unfold State.subscribe; simp [State.issue, h]
  | opened k => rw [State.foldl_openAndSend_dropped]; simp [State.onOpen, h]
  | failed k => exact absurd (by simp) (hn k)
  | clean => simp [State.goneClean, h]
  | closing => simp [State.beginClose, h]
  | attach => simp [h]
  | method => simp [State.receive, h]
  | stream => simp [State.receive, h]
  | error => simp [h]
  | garbage => simp [h]
  | detach => simp [h]
  | visitEnd => simp [h]
  | visit => simp [h]
  | visitThrow => simp [h]
  | timer => simp [h]

/-- Deliveries of a subscription that exists since `s₁`, seen in `s'`. -/
theorem delivered {s₁ s₂ s' : State} {ls : List Label} {k : Nat}
    (hk : k < s₂.nsub) (hrun : run s₂ ls = some s') (hg : gotRight s' k)
    (hrec : s₂.received = s₁.received)
    (hfrom : (s₂.subs k).from_ = s₁.doneCount)
    (hflight : ∀ id d c se, s₁.phase = .delivering id d c se →
      s₁.received.getLast? = some (id, d)) :
    ∃ seen rest, inFlight s₁ ++ messagesOf ls = seen ++ rest ∧
      (s'.subs k).got = (match (s₂.subs k).kind with
        | .callback => dataOf (s₂.subs k).id seen
        | .request => (dataOf (s₂.subs k).id seen).take 1) ∧
      (s'.phase = .idle → (s'.subs k).until_ = none → rest = []) := by
  obtain ⟨a1, a2, a3, a4⟩ := run_sub hrun hk
  have hsince := received_since hrun hrec hflight
  refine ⟨window s'.received s₁.doneCount (visible s' k),
    s'.received.drop (max s₁.doneCount (visible s' k)), ?_, ?_, ?_⟩
  · rw [← hsince]
    unfold window
    rw [List.drop_take]
    by_cases hle : s₁.doneCount ≤ visible s' k
    · rw [Nat.max_eq_right hle]
      have : s'.received.drop (visible s' k) =
          (s'.received.drop s₁.doneCount).drop (visible s' k - s₁.doneCount) := by
        rw [List.drop_drop]; congr 1; omega
      rw [this, List.take_append_drop]
    · rw [Nat.max_eq_left (by omega)]
      rw [show visible s' k - s₁.doneCount = 0 by omega]
      simp
  · unfold gotRight due at hg
    rw [a2, a3, a4, hfrom] at hg
    exact hg
  · intro hp hu
    have : visible s' k = s'.received.length := by simp [visible, hu, State.seenCount, hp]
    rw [this, List.drop_eq_nil_iff]
    exact Nat.le_max_right _ _

end Verif.Client
