import Verif.Client.Inv

/-!
# Invariants of the client: subscriptions and deliveries
-/

namespace Verif.Client
open Verif Verif.ClientSpec

/-- The messages received with number `a ≤ i < b`. -/
def window (l : List (Nat × Json)) (a b : Nat) : List (Nat × Json) := (l.take b).drop a

theorem window_snoc_le {l : List (Nat × Json)} {x : Nat × Json} {a b : Nat} (h : b ≤ l.length) :
    window (l ++ [x]) a b = window l a b := by
  simp [window, List.take_append_of_le_length h]

theorem window_snoc {l : List (Nat × Json)} {x : Nat × Json} {a : Nat} (h : a ≤ l.length) :
    window (l ++ [x]) a (l.length + 1) = window l a l.length ++ [x] := by
  simp only [window]
  rw [List.take_of_length_le (by simp), List.take_of_length_le (Nat.le_refl _),
    List.drop_append_of_le_length h]

theorem window_empty {l : List (Nat × Json)} {a b : Nat} (h : b ≤ a) : window l a b = [] := by
  simp only [window, List.drop_eq_nil_iff, List.length_take]; omega

/-- A smaller window is a prefix. -/
theorem window_prefix {l : List (Nat × Json)} {a b c : Nat} (h : b ≤ c) :
    ∃ r, window l a c = window l a b ++ r := by
  refine ⟨((l.take c).drop b).drop (a - b), ?_⟩
  unfold window
  have e : l.take c = l.take b ++ (l.take c).drop b := by
    conv => lhs; rw [← List.take_append_drop b (l.take c)]
    rw [List.take_take, Nat.min_eq_left h]
  rw [e]
  by_cases hl : b ≤ l.length
  · have hlen : (l.take b).length = b := by simp [hl]
    rw [List.drop_append, hlen]
    simp [List.drop_append, hlen]
  · have : (l.take c).drop b = [] := by simp; omega
    rw [this]; simp

theorem dataOf_append (id : Nat) (l r : List (Nat × Json)) :
    dataOf id (l ++ r) = dataOf id l ++ dataOf id r := by simp [dataOf]

/-- Number of messages subscription `k` has been able to see, whether or not it still exists. -/
def visible (s : State) (k : Nat) : Nat := (s.subs k).until_.getD (s.seenCount k)

/-- Invariant: which subscriptions are live. -/
structure InvLive (s : State) : Prop where
  sorted : s.live.Pairwise (· < ·)
  mem : ∀ k, k ∈ s.live ↔ k < s.nsub ∧ (s.subs k).until_ = none
  cursor : ∀ id data cursor settled, s.phase = .delivering id data cursor settled →
    cursor ≤ s.nsub ∧ s.received ≠ [] ∧ s.received.getLast? = some (id, data) ∧
    (∀ k ∈ settled, k ∈ s.live ∧ (s.subs k).kind = .request ∧ k < cursor ∧ (s.subs k).got ≠ []) ∧
    (∀ k ∈ s.live, (s.subs k).kind = .request → (s.subs k).got ≠ [] → k ∈ settled)
  idle : s.phase = .idle → ∀ k ∈ s.live, (s.subs k).kind = .request → (s.subs k).got = []
  kept : ∀ k, k < s.nsub → (s.subs k).kind = .request → (s.subs k).until_ ≠ none →
    (s.subs k).got ≠ []

theorem live_lt {s : State} (h : InvLive s) {k : Nat} (hk : k ∈ s.live) : k < s.nsub :=
  ((h.mem k).1 hk).1

theorem nextSub_some {l : List Nat} {c k : Nat} (hs : l.Pairwise (· < ·))
    (h : nextSub l c = some k) : k ∈ l ∧ c ≤ k ∧ ∀ j ∈ l, c ≤ j → k ≤ j := by
  unfold nextSub at h
  refine ⟨List.mem_of_find?_eq_some h, by simpa using List.find?_some h, ?_⟩
  induction l with
  | nil => simp at h
  | cons a l ih =>
    rw [List.find?_cons] at h
    intro j hj hc
    by_cases ha : c ≤ a
    · simp only [ha, decide_true, Option.some.injEq] at h
      subst h
      rcases List.mem_cons.1 hj with rfl | hj
      · exact Nat.le_refl _
      · exact Nat.le_of_lt ((List.pairwise_cons.1 hs).1 j hj)
    · simp only [ha, decide_false] at h
      rcases List.mem_cons.1 hj with rfl | hj
      · exact absurd hc ha
      · exact ih (List.pairwise_cons.1 hs).2 h j hj hc

theorem nextSub_none {l : List Nat} {c : Nat} (h : nextSub l c = none) : ∀ j ∈ l, j < c := by
  unfold nextSub at h
  intro j hj
  have := List.find?_eq_none.1 h j hj
  simpa using this

/-- What a call of a closure does to the table of subscriptions. -/
theorem call_subs_other (s : State) {k j : Nat} (id : Nat) (d : Json) (h : j ≠ k) :
    ((s.call k id d).1.subs j) = s.subs j := by
  unfold State.call; repeat' split
  all_goals simp [upd_ne _ _ h]

theorem call_sub (s : State) (k id j : Nat) (d : Json) :
    ((s.call k id d).1.subs j).kind = (s.subs j).kind ∧
    ((s.call k id d).1.subs j).id = (s.subs j).id ∧
    ((s.call k id d).1.subs j).until_ = (s.subs j).until_ ∧
    ((s.call k id d).1.subs j).from_ = (s.subs j).from_ := by
  by_cases h : j = k
  · subst h
    unfold State.call; repeat' split
    all_goals simp
  · rw [call_subs_other s id d h]; simp

theorem call_got (s : State) (k id : Nat) (d : Json) :
    ((s.call k id d).1.subs k).got =
      (if (s.subs k).id = id then
        (match (s.subs k).kind with
          | .callback => (s.subs k).got ++ [d]
          | .request => if (s.subs k).got = [] then [d] else (s.subs k).got)
       else (s.subs k).got) ∧
    ((s.call k id d).2 = true ↔ (s.subs k).id = id ∧ (s.subs k).kind = .request ∧
      (s.subs k).got = []) := by
  unfold State.call
  split
  · rename_i h
    split
    · rename_i hk; simp [hk]
    · rename_i hk
      split
      · rename_i hg; simp [hk, hg, h]
      · rename_i a r hg
        simp [hk, hg, h]
  · rename_i h; simp [h]

/-- After a call, the record of a request holds at most one item. -/
theorem call_req_got (s : State) (k id : Nat) (d : Json) (hk : (s.subs k).kind = .request) :
    ((s.call k id d).1.subs k).got ≠ [] ↔ (s.subs k).got ≠ [] ∨ (s.call k id d).2 = true := by
  rw [(call_got s k id d).1, (call_got s k id d).2]
  by_cases h : (s.subs k).id = id
  · simp only [h, if_true, hk, true_and]
    split <;> simp_all
  · simp [h, hk]

theorem InvLive.same {s s' : State} (h : InvLive s) (h1 : s'.live = s.live) (h2 : s'.subs = s.subs)
    (h3 : s'.nsub = s.nsub) (h4 : s'.phase = s.phase) (h5 : s'.received = s.received) :
    InvLive s' := by
  obtain ⟨a, b, c, d, e⟩ := h
  exact ⟨by rw [h1]; exact a, by rw [h1, h2, h3]; exact b, by rw [h1, h2, h3, h4, h5]; exact c,
    by rw [h1, h2, h4]; exact d, by rw [h2, h3]; exact e⟩

theorem InvLive.addSub {s : State} (h : InvLive s) (kd : Kind) (id : Nat) :
    InvLive (s.addSub kd id) := by
  have hne : ∀ k ∈ s.live, k ≠ s.nsub := fun k hk => Nat.ne_of_lt (live_lt h hk)
  unfold State.addSub
  refine ⟨?_, ?_, ?_, ?_, ?_⟩
  · simp only
    rw [List.pairwise_append]
    refine ⟨h.sorted, List.pairwise_singleton _ _, ?_⟩
    intro a ha b hb; rw [List.mem_singleton.1 hb]; exact live_lt h ha
  · intro k
    by_cases e : k = s.nsub
    · subst e; simp
    · simp only [List.mem_append, List.mem_singleton, e, or_false, upd_ne _ _ e, h.mem]
      constructor
      · rintro ⟨a, b⟩; exact ⟨Nat.lt_succ_of_lt a, b⟩
      · rintro ⟨a, b⟩; exact ⟨by have : k < s.nsub + 1 := a; omega, b⟩
  · intro i d c se hp
    obtain ⟨h1, h2, h3, h4, h5⟩ := h.cursor i d c se hp
    refine ⟨Nat.le_succ_of_le h1, h2, h3, ?_, ?_⟩
    · intro k hk
      obtain ⟨g1, g2, g3, g4⟩ := h4 k hk
      have e := hne k g1
      simp only [upd_ne _ _ e]
      exact ⟨List.mem_append_left _ g1, g2, g3, g4⟩
    · intro k hk
      simp only [List.mem_append, List.mem_singleton] at hk
      rcases hk with hk | rfl
      · simp only [upd_ne _ _ (hne k hk)]; exact h5 k hk
      · simp
  · intro hp k hk
    simp only [List.mem_append, List.mem_singleton] at hk
    rcases hk with hk | rfl
    · simp only [upd_ne _ _ (hne k hk)]; exact h.idle hp k hk
    · simp
  · intro k hk
    by_cases e : k = s.nsub
    · subst e; simp
    · simp only [upd_ne _ _ e]
      exact h.kept k (by have : k < s.nsub + 1 := hk; omega)

/-- `InvLive` without the part about settled requests, which `finish` restores. -/
structure InvLive0 (s : State) : Prop where
  sorted : s.live.Pairwise (· < ·)
  mem : ∀ k, k ∈ s.live ↔ k < s.nsub ∧ (s.subs k).until_ = none
  kept : ∀ k, k < s.nsub → (s.subs k).kind = .request → (s.subs k).until_ ≠ none →
    (s.subs k).got ≠ []

theorem InvLive.to0 {s : State} (h : InvLive s) : InvLive0 s := ⟨h.sorted, h.mem, h.kept⟩

theorem InvLive0.unsubscribe {s : State} (h : InvLive0 s) (k : Nat)
    (hk : (s.subs k).kind = .request → (s.subs k).got ≠ []) : InvLive0 (s.unsubscribe k) := by
  refine ⟨?_, ?_, ?_⟩
  · rw [State.unsubscribe_live]; exact h.sorted.filter _
  · intro j
    rw [State.unsubscribe_live, State.unsubscribe_subs, State.unsubscribe_nsub]
    by_cases e : j = k
    · subst e; simp
    · simp [upd_ne _ _ e, e, h.mem]
  · intro j
    rw [State.unsubscribe_subs, State.unsubscribe_nsub]
    by_cases e : j = k
    · subst e; simp only [upd_self]; intro _ a _; exact hk a
    · simp only [upd_ne _ _ e]; exact h.kept j

theorem finish_got (s : State) (l : List Nat) (k : Nat) :
    ((s.finish l).subs k).got = (s.subs k).got ∧ ((s.finish l).subs k).kind = (s.subs k).kind ∧
    ((s.finish l).subs k).id = (s.subs k).id ∧ ((s.finish l).subs k).from_ = (s.subs k).from_ := by
  induction l generalizing s with
  | nil => simp [State.finish]
  | cons j l ih =>
    simp only [State.finish]
    have := ih (s.unsubscribe j)
    rw [State.unsubscribe_subs] at this
    by_cases e : k = j
    · subst e; simpa using this
    · simpa [upd_ne _ _ e] using this

theorem InvLive0.finish {s : State} (h : InvLive0 s) (l : List Nat)
    (hl : ∀ k ∈ l, (s.subs k).kind = .request → (s.subs k).got ≠ []) :
    InvLive0 (s.finish l) ∧ (∀ j, j ∈ (s.finish l).live ↔ j ∈ s.live ∧ j ∉ l) := by
  induction l generalizing s with
  | nil => exact ⟨h, by simp [State.finish]⟩
  | cons k l ih =>
    simp only [State.finish]
    have h1 := h.unsubscribe k (hl k (by simp))
    obtain ⟨g1, g2⟩ := ih h1 (by
      intro j hj
      rw [State.unsubscribe_subs]
      by_cases e : j = k
      · subst e; simpa using hl j (by simp)
      · simpa only [upd_ne _ _ e] using hl j (by simp [hj]))
    refine ⟨g1, ?_⟩
    intro j
    rw [g2 j, State.unsubscribe_live]
    simp only [List.mem_filter, bne_iff_ne, ne_eq, List.mem_cons, not_or]
    exact and_assoc

/-- The end of a delivery. -/
theorem InvLive.finish {s : State} (h : InvLive0 s) (l : List Nat)
    (hp : s.phase = .idle)
    (hl : ∀ k ∈ l, (s.subs k).kind = .request → (s.subs k).got ≠ [])
    (hr : ∀ k ∈ s.live, (s.subs k).kind = .request → (s.subs k).got ≠ [] → k ∈ l) :
    InvLive (s.finish l) := by
  obtain ⟨g1, g2⟩ := h.finish l hl
  refine ⟨g1.sorted, g1.mem, ?_, ?_, g1.kept⟩
  · intro i d c se hph; rw [State.finish_phase, hp] at hph; cases hph
  · intro _ k hk hkr
    obtain ⟨e1, e2, _, _⟩ := finish_got s l k
    rw [e1]
    rw [e2] at hkr
    obtain ⟨a, b⟩ := (g2 k).1 hk
    exact Classical.byContradiction fun hn => b (hr k a hkr hn)

theorem InvLive0.call {s : State} (h : InvLive0 s) (k id : Nat) (d : Json) (ph : Phase) (th : Bool) :
    InvLive0 { (s.call k id d).1 with phase := ph, threw := th } := by
  refine ⟨by simpa using h.sorted, ?_, ?_⟩
  · intro j
    simp only [State.call_live, State.call_nsub, (call_sub s k id j d).2.2.1]; exact h.mem j
  · intro j
    simp only [State.call_nsub, (call_sub s k id j d).2.2.1, (call_sub s k id j d).1]
    intro h1 h2 h3
    by_cases e : j = k
    · subst e; exact (call_req_got s j id d h2).2 (.inl (h.kept j h1 h2 h3))
    · rw [call_subs_other s id d e]; exact h.kept j h1 h2 h3

theorem inv_live {s : State} (hr : Reachable s) : InvLive s := by
  refine hr.induct ?_ ?_
  · refine ⟨List.Pairwise.nil, ?_, ?_, ?_, ?_⟩ <;> simp [init]
  intro s l s' _ h hst
  cases step_Step hst with
  | request ns m a =>
    refine InvLive.same (s := (s.issue (s.newMsg ns m a)).addSub .request (s.newMsg ns m a).id)
      (InvLive.addSub (InvLive.same h ?_ ?_ ?_ ?_ ?_) _ _) ?_ ?_ ?_ ?_ ?_
    any_goals rfl
    all_goals unfold State.request; simp
  | subscribe ns m a =>
    refine h.same ?_ ?_ ?_ ?_ ?_ <;> unfold State.subscribe <;> simp <;> rfl
  | attach => exact h.addSub _ _
  | detach k hk hkd =>
    have h0 := h.to0.unsubscribe k (by rw [hkd]; simp)
    refine ⟨h0.sorted, h0.mem, ?_, ?_, h0.kept⟩
    · intro i d c se hp
      rw [State.unsubscribe_phase] at hp
      obtain ⟨h1, h2, h3, h4, h5⟩ := h.cursor i d c se hp
      rw [State.unsubscribe_nsub, State.unsubscribe_received]
      refine ⟨h1, h2, h3, ?_, ?_⟩
      · intro j hj
        obtain ⟨g1, g2, g3, g4⟩ := h4 j hj
        have e : j ≠ k := by rintro rfl; rw [hkd] at g2; cases g2
        rw [State.unsubscribe_live, State.unsubscribe_subs, upd_ne _ _ e]
        exact ⟨by simp [g1, e], g2, g3, g4⟩
      · intro j hj
        rw [State.unsubscribe_live] at hj
        simp only [List.mem_filter, bne_iff_ne, ne_eq] at hj
        rw [State.unsubscribe_subs, upd_ne _ _ hj.2]
        exact h5 j hj.1
    · intro hp j hj
      rw [State.unsubscribe_phase] at hp
      rw [State.unsubscribe_live] at hj
      simp only [List.mem_filter, bne_iff_ne, ne_eq] at hj
      rw [State.unsubscribe_subs, upd_ne _ _ hj.2]
      exact h.idle hp j hj.1
  | opened k hp hk =>
    refine InvLive.same h ?_ ?_ ?_ ?_ ?_
    · rw [State.foldl_openAndSend_live]; rfl
    · rw [State.foldl_openAndSend_subs]; rfl
    · rw [State.foldl_openAndSend_nsub]; rfl
    · rw [State.foldl_openAndSend_phase]; rfl
    · rw [State.foldl_openAndSend_received]; rfl
  | failed k => refine h.same ?_ ?_ ?_ ?_ ?_ <;> simp <;> rfl
  | clean k => refine h.same ?_ ?_ ?_ ?_ ?_ <;> simp <;> rfl
  | closing k => exact h.same rfl rfl rfl rfl rfl
  | method k id data hp =>
    refine ⟨h.sorted, h.mem, ?_, fun hp => (by cases hp), h.kept⟩
    intro i d c se hph
    simp only [State.receive, Phase.delivering.injEq] at hph
    obtain ⟨rfl, rfl, rfl, rfl⟩ := hph
    refine ⟨Nat.zero_le _, by simp [State.receive], by simp [State.receive], by simp, ?_⟩
    intro k hk hkr hg; exact absurd (h.idle hp k hk hkr) hg
  | stream k id data hp =>
    refine ⟨h.sorted, h.mem, ?_, fun hp => (by cases hp), h.kept⟩
    intro i d c se hph
    simp only [State.receive, Phase.delivering.injEq] at hph
    obtain ⟨rfl, rfl, rfl, rfl⟩ := hph
    refine ⟨Nat.zero_le _, by simp [State.receive], by simp [State.receive], by simp, ?_⟩
    intro k hk hkr hg; exact absurd (h.idle hp k hk hkr) hg
  | error => exact h
  | garbage => exact h
  | visitEnd id data cursor settled hp hn =>
    obtain ⟨h1, h2, h3, h4, h5⟩ := h.cursor _ _ _ _ hp
    refine InvLive.finish (s := { s with phase := .idle }) ⟨h.sorted, h.mem, h.kept⟩ settled rfl ?_ h5
    intro k hk _; exact (h4 k hk).2.2.2
  | visit id data cursor settled k hp hn =>
    obtain ⟨h1, h2, h3, h4, h5⟩ := h.cursor _ _ _ _ hp
    obtain ⟨n1, n2, n3⟩ := nextSub_some h.sorted hn
    have h0 := InvLive0.call h.to0 k id data (.delivering id data (k + 1)
      (if (s.call k id data).2 then settled ++ [k] else settled)) (s.call k id data).1.threw
    refine ⟨h0.sorted, h0.mem, ?_, fun hp => (by cases hp), h0.kept⟩
    intro i d c se hph
    simp only [Phase.delivering.injEq] at hph
    obtain ⟨rfl, rfl, rfl, rfl⟩ := hph
    simp only [State.call_nsub, State.call_received, State.call_live]
    refine ⟨live_lt h n1, h2, h3, ?_, ?_⟩
    · intro j hj
      by_cases e : j = k
      · subst e
        by_cases hc : (s.call j id data).2 = true
        · have hkr := ((call_got s j id data).2.1 hc).2.1
          exact ⟨n1, by rw [(call_sub s j id j data).1]; exact hkr, Nat.lt_succ_self _,
            (call_req_got s j id data hkr).2 (.inr hc)⟩
        · rw [if_neg hc] at hj
          obtain ⟨g1, g2, g3, g4⟩ := h4 j hj
          exact absurd g3 (Nat.not_lt.2 n2)
      · have hj' : j ∈ settled := by
          split at hj
          · simpa [e] using hj
          · exact hj
        obtain ⟨g1, g2, g3, g4⟩ := h4 j hj'
        rw [call_subs_other s id data e]
        exact ⟨g1, g2, Nat.lt_succ_of_le (Nat.le_of_lt (Nat.lt_of_lt_of_le g3 n2)), g4⟩
    · intro j hj hjr hg
      by_cases e : j = k
      · subst e
        rw [(call_sub s j id j data).1] at hjr
        rcases (call_req_got s j id data hjr).1 hg with hg | hg
        · have := h5 j hj hjr hg
          exact absurd (h4 j this).2.2.1 (Nat.not_lt.2 n2)
        · simp [hg]
      · rw [call_subs_other s id data e] at hjr hg
        have := h5 j hj hjr hg
        split <;> simp [this]
  | visitThrow id data cursor settled k hp hn hid hkd =>
    obtain ⟨h1, h2, h3, h4, h5⟩ := h.cursor _ _ _ _ hp
    refine InvLive.finish (InvLive0.call h.to0 k id data .idle true) settled rfl ?_ ?_
    · intro j hj hjr
      obtain ⟨g1, g2, g3, g4⟩ := h4 j hj
      have e : j ≠ k := by rintro rfl; rw [hkd] at g2; cases g2
      simp only [call_subs_other s id data e]; exact g4
    · intro j hj hjr hg
      simp only [State.call_live] at hj
      have e : j ≠ k := by
        rintro rfl
        simp only [(call_sub s j id j data).1] at hjr
        rw [hkd] at hjr; cases hjr
      simp only [call_subs_other s id data e] at hjr hg
      exact h5 j hj hjr hg
  | timer => refine h.same ?_ ?_ ?_ ?_ ?_ <;> simp

/-! ## Deliveries -/

/-- Messages subscription `k` should have been given. -/
def due (s : State) (k : Nat) : List Json :=
  dataOf (s.subs k).id (window s.received (s.subs k).from_ (visible s k))

/-- Subscription `k` got what it is due. -/
def gotRight (s : State) (k : Nat) : Prop :=
  (s.subs k).got = match (s.subs k).kind with
    | .callback => due s k
    | .request => (due s k).take 1

/-- Invariant: all subscriptions got what they are due. -/
structure InvGot (s : State) : Prop where
  bound : ∀ k, k < s.nsub → (s.subs k).from_ ≤ s.doneCount ∧ visible s k ≤ s.received.length
  got : ∀ k, k < s.nsub → gotRight s k

theorem seenCount_le (s : State) (k : Nat) : s.seenCount k ≤ s.received.length := by
  unfold State.seenCount; split
  · exact Nat.le_refl _
  · split <;> omega

theorem doneCount_le (s : State) (k : Nat) : s.doneCount ≤ s.seenCount k := by
  unfold State.doneCount State.seenCount; split
  · exact Nat.le_refl _
  · split <;> omega

/-- Nothing about `k` changes. -/
theorem gotRight_of_eq {s s' : State} {k : Nat} (h : gotRight s k) (h1 : (s'.subs k) = (s.subs k))
    (h2 : visible s' k = visible s k)
    (h3 : ∃ r, s'.received = s.received ++ r) (hb : visible s k ≤ s.received.length) :
    gotRight s' k := by
  obtain ⟨r, hr⟩ := h3
  have : window s'.received (s.subs k).from_ (visible s k) =
      window s.received (s.subs k).from_ (visible s k) := by
    simp only [window, hr, List.take_append_of_le_length hb]
  unfold gotRight due at *
  rw [h1, h2, this]; exact h

theorem InvGot.same {s s' : State} (h : InvGot s) (h1 : s'.subs = s.subs)
    (h2 : s'.nsub = s.nsub) (h3 : s'.phase = s.phase) (h4 : s'.received = s.received) :
    InvGot s' := by
  have hv : ∀ k, visible s' k = visible s k := by
    intro k; simp only [visible, State.seenCount, h1, h3, h4]
  refine ⟨?_, ?_⟩
  · intro k hk
    rw [h2] at hk
    rw [hv, h1, h4]
    have := h.bound k hk
    simp only [State.doneCount, h3, h4] at this ⊢
    exact this
  · intro k hk
    rw [h2] at hk
    exact gotRight_of_eq (h.got k hk) (by rw [h1]) (hv k) ⟨[], by simp [h4]⟩ (h.bound k hk).2

theorem InvGot.addSub {s : State} (h : InvGot s) (hl : InvLive s) (kd : Kind) (id : Nat) :
    InvGot (s.addSub kd id) := by
  have hv : ∀ k, k ≠ s.nsub → visible (s.addSub kd id) k = visible s k := by
    intro k hk; simp only [visible, State.addSub, upd_ne _ _ hk]; rfl
  have hd : (s.addSub kd id).doneCount = s.doneCount := rfl
  -- a new subscription has seen exactly the messages whose delivery is over
  have hnew : visible (s.addSub kd id) s.nsub = s.doneCount := by
    simp only [visible, State.addSub, upd_self, Option.getD_none]
    cases hp : s.phase with
    | idle => simp [State.seenCount, State.doneCount, hp]
    | delivering i d c se =>
      have := (hl.cursor _ _ _ _ hp).1
      simp [State.seenCount, State.doneCount, hp, Nat.not_lt.2 this]
  refine ⟨?_, ?_⟩
  · intro k hk
    by_cases e : k = s.nsub
    · subst e
      rw [hnew, hd]
      simp only [State.addSub, upd_self, Nat.le_refl, true_and]
      exact Nat.le_trans (doneCount_le s 0) (seenCount_le s 0)
    · rw [hv k e, hd]
      simp only [State.addSub, upd_ne _ _ e]
      exact h.bound k (by have : k < s.nsub + 1 := hk; omega)
  · intro k hk
    by_cases e : k = s.nsub
    · subst e
      have : due (s.addSub kd id) s.nsub = [] := by
        unfold due
        rw [hnew]
        simp only [State.addSub, upd_self]
        rw [window_empty (Nat.le_refl _)]; rfl
      unfold gotRight
      rw [this]
      simp only [State.addSub, upd_self]
      cases kd <;> rfl
    · have hk' : k < s.nsub := by have : k < s.nsub + 1 := hk; omega
      exact gotRight_of_eq (h.got k hk') (by simp only [State.addSub, upd_ne _ _ e]) (hv k e)
        ⟨[], by simp [State.addSub]⟩ (h.bound k hk').2

theorem visible_unsubscribe (s : State) (k j : Nat) : visible (s.unsubscribe k) j = visible s j := by
  have hsc : (s.unsubscribe k).seenCount j = s.seenCount j := by
    simp only [State.seenCount, State.unsubscribe_phase, State.unsubscribe_received]
  unfold visible
  rw [hsc, State.unsubscribe_subs]
  by_cases e : j = k
  · subst e; simp
  · simp [upd_ne _ _ e]

theorem InvGot.unsubscribe {s : State} (h : InvGot s) (k : Nat) : InvGot (s.unsubscribe k) := by
  have hsub : ∀ j, ((s.unsubscribe k).subs j).got = (s.subs j).got ∧
      ((s.unsubscribe k).subs j).kind = (s.subs j).kind ∧
      ((s.unsubscribe k).subs j).id = (s.subs j).id ∧
      ((s.unsubscribe k).subs j).from_ = (s.subs j).from_ := by
    intro j
    rw [State.unsubscribe_subs]
    by_cases e : j = k
    · subst e; simp
    · simp [upd_ne _ _ e]
  refine ⟨?_, ?_⟩
  · intro j hj
    rw [State.unsubscribe_nsub] at hj
    rw [visible_unsubscribe, (hsub j).2.2.2, State.unsubscribe_received]
    have := h.bound j hj
    simp only [State.doneCount, State.unsubscribe_phase, State.unsubscribe_received] at this ⊢
    exact this
  · intro j hj
    rw [State.unsubscribe_nsub] at hj
    have := h.got j hj
    unfold gotRight due at *
    rw [(hsub j).1, (hsub j).2.1, (hsub j).2.2.1, (hsub j).2.2.2, visible_unsubscribe,
      State.unsubscribe_received]
    exact this

theorem InvGot.finish {s : State} (h : InvGot s) (l : List Nat) : InvGot (s.finish l) := by
  induction l generalizing s with
  | nil => exact h
  | cons k l ih => exact ih (h.unsubscribe k)

theorem InvGot.receive {s : State} (h : InvGot s) (hp : s.phase = .idle) (id : Nat) (d : Json) :
    InvGot (s.receive id d) := by
  have hv : ∀ k, visible (s.receive id d) k = visible s k := by
    intro k; simp [visible, State.receive, State.seenCount, hp]
  refine ⟨?_, ?_⟩
  · intro k hk
    rw [hv]
    have := h.bound k hk
    simp only [State.doneCount, hp, State.receive] at this ⊢
    simp only [List.length_append, List.length_singleton]
    omega
  · intro k hk
    exact gotRight_of_eq (h.got k hk) rfl (hv k) ⟨[(id, d)], rfl⟩ (h.bound k hk).2

/-- One closure is called during a delivery. -/
theorem InvGot.visit {s : State} (h : InvGot s) (hl : InvLive s) {id : Nat} {data : Json}
    {cursor : Nat} {settled se' : List Nat} {k : Nat}
    (hp : s.phase = .delivering id data cursor settled) (hn : nextSub s.live cursor = some k) :
    InvGot { (s.call k id data).1 with phase := .delivering id data (k + 1) se' } := by
  obtain ⟨h1, h2, h3, h4, h5⟩ := hl.cursor _ _ _ _ hp
  obtain ⟨n1, n2, n3⟩ := nextSub_some hl.sorted hn
  obtain ⟨pre, hpre⟩ : ∃ pre, s.received = pre ++ [(id, data)] := by
    rw [List.getLast?_eq_some_iff] at h3; exact h3
  have hv : ∀ j, j ≠ k → j < s.nsub →
      visible { (s.call k id data).1 with phase := .delivering id data (k + 1) se' } j =
        visible s j := by
    intro j e hj
    simp only [visible, (call_sub s k id j data).2.2.1]
    cases hu : (s.subs j).until_ with
    | some n => simp
    | none =>
      have hjl : j ∈ s.live := (hl.mem j).2 ⟨hj, hu⟩
      simp only [State.seenCount, hp, State.call_received, Option.getD_none]
      have : j < k + 1 ↔ j < cursor := by
        constructor
        · intro h; exact Nat.lt_of_not_le fun hc => by have := n3 j hjl hc; omega
        · intro h; omega
      simp [this]
  have hvk : visible { (s.call k id data).1 with phase := .delivering id data (k + 1) se' } k =
      s.received.length := by
    simp only [visible, (call_sub s k id k data).2.2.1, ((hl.mem k).1 n1).2, Option.getD_none]
    simp [State.seenCount]
  have hvk0 : visible s k = pre.length := by
    simp only [visible, ((hl.mem k).1 n1).2, Option.getD_none]
    simp [State.seenCount, hp, Nat.not_lt.2 n2, hpre]
  have hdone : s.doneCount = pre.length := by simp [State.doneCount, hp, hpre]
  refine ⟨?_, ?_⟩
  · intro j hj
    simp only [State.call_nsub] at hj
    have hb := h.bound j hj
    by_cases e : j = k
    · subst e
      rw [hvk]
      simp only [(call_sub s j id j data).2.2.2, State.call_received, State.doneCount]
      rw [hdone] at hb
      exact ⟨by simp [hpre, hb.1], Nat.le_refl _⟩
    · rw [hv j e hj]
      simp only [(call_sub s k id j data).2.2.2, State.call_received, State.doneCount]
      rw [hdone] at hb
      exact ⟨by simp [hpre, hb.1], hb.2⟩
  · intro j hj
    simp only [State.call_nsub] at hj
    by_cases e : j = k
    · subst e
      have hb := h.bound j hj
      have hg := h.got j hj
      rw [hdone] at hb
      unfold gotRight due at hg ⊢
      rw [hvk]
      rw [hvk0, hpre, window_snoc_le (Nat.le_refl _)] at hg
      simp only [(call_sub s j id j data).1, (call_sub s j id j data).2.1,
        (call_sub s j id j data).2.2.2, State.call_received, hpre, List.length_append,
        List.length_singleton, window_snoc hb.1, dataOf_append, (call_got s j id data).1]
      by_cases hid : (s.subs j).id = id
      · have hone : dataOf (s.subs j).id [(id, data)] = [data] := by simp [dataOf, hid]
        rw [hone, if_pos hid]
        cases hk : (s.subs j).kind with
        | callback => simp only [hk] at hg ⊢; rw [hg]
        | request =>
          simp only [hk] at hg ⊢
          rw [hg]
          cases dataOf (s.subs j).id (window pre (s.subs j).from_ pre.length) <;> simp
      · have hone : dataOf (s.subs j).id [(id, data)] = [] := by
          simp [dataOf, Ne.symm hid]
        rw [hone, if_neg hid, List.append_nil]
        exact hg
    · exact gotRight_of_eq (h.got j hj) (by simp only [call_subs_other s id data e]) (hv j e hj)
        ⟨[], by simp⟩ (h.bound j hj).2

/-- A delivery ends: everybody alive has seen the message. -/
theorem InvGot.visitEnd {s : State} (h : InvGot s) (hl : InvLive s) {id : Nat} {data : Json}
    {cursor : Nat} {settled : List Nat}
    (hp : s.phase = .delivering id data cursor settled) (hn : nextSub s.live cursor = none) :
    InvGot { s with phase := .idle } := by
  have hv : ∀ j, j < s.nsub → visible { s with phase := .idle } j = visible s j := by
    intro j hj
    simp only [visible]
    cases hu : (s.subs j).until_ with
    | some n => simp
    | none =>
      have := nextSub_none hn j ((hl.mem j).2 ⟨hj, hu⟩)
      simp [State.seenCount, hp, this]
  refine ⟨?_, ?_⟩
  · intro j hj
    rw [hv j hj]
    have := h.bound j hj
    simp only [State.doneCount, hp] at this ⊢
    omega
  · intro j hj
    exact gotRight_of_eq (h.got j hj) rfl (hv j hj) ⟨[], by simp⟩ (h.bound j hj).2

theorem threw_mono {s s' : State} {l : Label} (h : step s l = some s') (ht : s'.threw = false) :
    s.threw = false ∧ l ≠ .visitThrow := by
  cases step_Step h with
  | request ns m a =>
    unfold State.request at ht; simp [State.issue] at ht; exact ⟨ht, by simp⟩
  | subscribe ns m a =>
    unfold State.subscribe at ht; simp [State.issue] at ht; exact ⟨ht, by simp⟩
  | attach => exact ⟨ht, by simp⟩
  | detach => simp at ht; exact ⟨ht, by simp⟩
  | opened => rw [State.foldl_openAndSend_threw] at ht; exact ⟨ht, by simp⟩
  | failed => simp at ht; exact ⟨ht, by simp⟩
  | clean => simp at ht; exact ⟨ht, by simp⟩
  | closing => exact ⟨ht, by simp⟩
  | method => exact ⟨ht, by simp⟩
  | stream => exact ⟨ht, by simp⟩
  | error => exact ⟨ht, by simp⟩
  | garbage => exact ⟨ht, by simp⟩
  | visitEnd => simp at ht; exact ⟨ht, by simp⟩
  | visit => simp at ht; exact ⟨ht, by simp⟩
  | visitThrow => simp at ht
  | timer => simp at ht; exact ⟨ht, by simp⟩

theorem inv_got {s : State} (hr : Reachable s) (ht : s.threw = false) : InvGot s := by
  refine hr.induct (P := fun s => s.threw = false → InvGot s) ?_ ?_ ht
  · intro _; refine ⟨?_, ?_⟩ <;> simp [init]
  intro s l s' hr h hst ht'
  obtain ⟨ht, hl⟩ := threw_mono hst ht'
  have h := h ht
  have hlv := inv_live hr
  cases step_Step hst with
  | request ns m a =>
    have h1 : InvLive (s.issue (s.newMsg ns m a)) := by refine InvLive.same hlv ?_ ?_ ?_ ?_ ?_ <;> rfl
    have h2 : InvGot (s.issue (s.newMsg ns m a)) := by refine InvGot.same h ?_ ?_ ?_ ?_ <;> rfl
    refine InvGot.same (h2.addSub h1 .request (s.newMsg ns m a).id) ?_ ?_ ?_ ?_
    all_goals unfold State.request; simp
  | subscribe ns m a =>
    refine h.same ?_ ?_ ?_ ?_ <;> unfold State.subscribe <;> simp <;> rfl
  | attach => exact h.addSub hlv _ _
  | detach k hk hkd => exact h.unsubscribe k
  | opened k hp hk =>
    refine InvGot.same h ?_ ?_ ?_ ?_
    · rw [State.foldl_openAndSend_subs]; rfl
    · rw [State.foldl_openAndSend_nsub]; rfl
    · rw [State.foldl_openAndSend_phase]; rfl
    · rw [State.foldl_openAndSend_received]; rfl
  | failed k => refine h.same ?_ ?_ ?_ ?_ <;> simp <;> rfl
  | clean k => refine h.same ?_ ?_ ?_ ?_ <;> simp <;> rfl
  | closing k => exact h.same rfl rfl rfl rfl
  | method k id data hp => exact h.receive hp id data
  | stream k id data hp => exact h.receive hp id data
  | error => exact h
  | garbage => exact h
  | visitEnd id data cursor settled hp hn => exact (h.visitEnd hlv hp hn).finish settled
  | visit id data cursor settled k hp hn => exact h.visit hlv hp hn
  | visitThrow => exact absurd rfl hl
  | timer => refine h.same ?_ ?_ ?_ ?_ <;> simp

end Verif.Client
