import Verif.Client.History

/-!
# Invariants of the client: requests never miss their response
-/

namespace Verif.Client
open Verif Verif.ClientSpec

/-- Where the ids compared by closures come from. -/
structure InvIds (s : State) : Prop where
  reqs : ∀ k, k < s.nsub → (s.subs k).kind = .request →
    (s.subs k).id ∈ s.issued ∧ (s.issued.Pairwise (· < ·) → (s.subs k).id ∉ s.stores)
  cbs : ∀ k, k < s.nsub → (s.subs k).kind = .callback → (s.subs k).id ∈ s.stores
  stores : ∀ i ∈ s.stores, i ∈ s.issued

theorem InvIds.keep {s s' : State} (h : InvIds s) (h1 : s'.nsub = s.nsub)
    (h2 : ∀ k, (s'.subs k).kind = (s.subs k).kind) (h3 : ∀ k, (s'.subs k).id = (s.subs k).id)
    (h4 : s'.issued = s.issued) (h5 : s'.stores = s.stores) : InvIds s' := by
  refine ⟨?_, ?_, ?_⟩
  · intro k; rw [h1, h2, h3, h4, h5]; exact h.reqs k
  · intro k; rw [h1, h2, h3, h5]; exact h.cbs k
  · rw [h4, h5]; exact h.stores

theorem snoc_lt {l : List Nat} {x : Nat} (h : (l ++ [x]).Pairwise (· < ·)) :
    l.Pairwise (· < ·) ∧ ∀ y ∈ l, y < x := by
  rw [List.pairwise_append] at h
  exact ⟨h.1, fun y hy => h.2.2 y hy x (by simp)⟩

theorem inv_ids {s : State} (hr : Reachable s) : InvIds s := by
  refine hr.induct (P := InvIds) ?_ ?_
  · refine ⟨?_, ?_, ?_⟩ <;> simp [init]
  intro s l s' hr h hst
  have hk2 : ∀ k, k < s.nsub → _ := fun k hk => step_sub hst hk
  have hsame : s'.nsub = s.nsub → s'.issued = s.issued → s'.stores = s.stores → InvIds s' := by
    intro h1 h4 h5
    refine ⟨?_, ?_, ?_⟩
    · intro k hk
      rw [h1] at hk
      obtain ⟨_, a, b, _⟩ := hk2 k hk
      rw [a, b, h4, h5]; exact h.reqs k hk
    · intro k hk
      rw [h1] at hk
      obtain ⟨_, a, b, _⟩ := hk2 k hk
      rw [a, b, h5]; exact h.cbs k hk
    · rw [h4, h5]; exact h.stores
  cases step_Step hst with
  | request ns m a =>
    have e1 : (s.request (s.newMsg ns m a)).nsub = s.nsub + 1 := by unfold State.request; simp; rfl
    have e2 : (s.request (s.newMsg ns m a)).issued = s.issued ++ [(s.newMsg ns m a).id] := by
      unfold State.request; simp; rfl
    have e3 : (s.request (s.newMsg ns m a)).stores = s.stores := by unfold State.request; simp; rfl
    have e4 : ((s.request (s.newMsg ns m a)).subs s.nsub).id = (s.newMsg ns m a).id ∧
        ((s.request (s.newMsg ns m a)).subs s.nsub).kind = .request := by
      unfold State.request
      simp only [State.openAndSend_subs]
      have : (s.issue (s.newMsg ns m a)).nsub = s.nsub := rfl
      simp [State.addSub, this]
    refine ⟨?_, ?_, ?_⟩
    · intro k hk hkr
      rw [e2, e3]
      by_cases e : k = s.nsub
      · subst e
        rw [e4.1]
        refine ⟨by simp, ?_⟩
        intro hp hm
        exact Nat.lt_irrefl _ ((snoc_lt hp).2 _ (h.stores _ hm))
      · have hk' : k < s.nsub := by rw [e1] at hk; omega
        obtain ⟨_, a, b, _⟩ := hk2 k hk'
        rw [a] at hkr; rw [b]
        obtain ⟨g1, g2⟩ := h.reqs k hk' hkr
        exact ⟨List.mem_append_left _ g1, fun hp => g2 (snoc_lt hp).1⟩
    · intro k hk hkc
      rw [e3]
      by_cases e : k = s.nsub
      · subst e; rw [e4.2] at hkc; cases hkc
      · have hk' : k < s.nsub := by rw [e1] at hk; omega
        obtain ⟨_, a, b, _⟩ := hk2 k hk'
        rw [a] at hkc; rw [b]; exact h.cbs k hk' hkc
    · intro i hi; rw [e3] at hi; rw [e2]; exact List.mem_append_left _ (h.stores i hi)
  | subscribe ns m a =>
    have e1 : (s.subscribe (s.newMsg ns m a)).nsub = s.nsub := by unfold State.subscribe; simp; rfl
    have e2 : (s.subscribe (s.newMsg ns m a)).issued = s.issued ++ [(s.newMsg ns m a).id] := by
      unfold State.subscribe; simp; rfl
    have e3 : (s.subscribe (s.newMsg ns m a)).stores = s.stores ++ [(s.newMsg ns m a).id] := by
      unfold State.subscribe; simp
    refine ⟨?_, ?_, ?_⟩
    · intro k hk hkr
      rw [e1] at hk
      obtain ⟨_, a, b, _⟩ := hk2 k hk
      rw [a] at hkr; rw [b, e2, e3]
      obtain ⟨g1, g2⟩ := h.reqs k hk hkr
      refine ⟨List.mem_append_left _ g1, fun hp hm => ?_⟩
      simp only [List.mem_append, List.mem_singleton] at hm
      rcases hm with hm | hm
      · exact g2 (snoc_lt hp).1 hm
      · have := (snoc_lt hp).2 _ g1; rw [hm] at this; exact Nat.lt_irrefl _ this
    · intro k hk hkc
      rw [e1] at hk
      obtain ⟨_, a, b, _⟩ := hk2 k hk
      rw [a] at hkc; rw [b, e3]
      exact List.mem_append_left _ (h.cbs k hk hkc)
    · intro i hi
      rw [e3] at hi; rw [e2]
      simp only [List.mem_append, List.mem_singleton] at hi ⊢
      exact hi.imp (h.stores i) (fun h => h)
  | attach id hid =>
    have e4 : ((s.addSub .callback id).subs s.nsub).id = id ∧
        ((s.addSub .callback id).subs s.nsub).kind = .callback := by simp [State.addSub]
    refine ⟨?_, ?_, h.stores⟩
    · intro k hk hkr
      by_cases e : k = s.nsub
      · subst e; rw [e4.2] at hkr; cases hkr
      · have hk' : k < s.nsub := by have : k < s.nsub + 1 := hk; omega
        obtain ⟨_, a, b, _⟩ := hk2 k hk'
        rw [a] at hkr; rw [b]; exact h.reqs k hk' hkr
    · intro k hk hkc
      by_cases e : k = s.nsub
      · subst e; rw [e4.1]; exact hid
      · have hk' : k < s.nsub := by have : k < s.nsub + 1 := hk; omega
        obtain ⟨_, a, b, _⟩ := hk2 k hk'
        rw [a] at hkc; rw [b]; exact h.cbs k hk' hkc
  | detach => exact hsame (by simp) (by simp) (by simp)
  | opened =>
    exact hsame (State.foldl_openAndSend_nsub _ _) (State.foldl_openAndSend_issued _ _)
      (State.foldl_openAndSend_stores _ _)
  | failed => exact hsame (by simp [State.onError]) (by simp [State.onError]) (by simp [State.onError])
  | clean =>
    exact hsame (by simp [State.goneClean]) (by simp [State.goneClean]) (by simp [State.goneClean])
  | closing => exact hsame rfl rfl rfl
  | method => exact hsame rfl rfl rfl
  | stream => exact hsame rfl rfl rfl
  | error => exact h
  | garbage => exact h
  | visitEnd => exact hsame (by simp) (by simp) (by simp)
  | visit => exact hsame (by simp) (by simp) (by simp)
  | visitThrow => exact hsame (by simp) (by simp) (by simp)
  | timer => exact hsame (by simp) (by simp) (by simp)

/-- Requests have got exactly what is due to them. -/
def InvReq (s : State) : Prop := ∀ k, k < s.nsub → (s.subs k).kind = .request → gotRight s k

theorem gotRight_congr {s s' : State} {k : Nat} (h : gotRight s k)
    (h1 : (s'.subs k).got = (s.subs k).got) (h2 : (s'.subs k).kind = (s.subs k).kind)
    (h3 : due s' k = due s k) : gotRight s' k := by
  unfold gotRight at *; rw [h1, h2, h3]; exact h

/-- `due` looks only at these. -/
theorem due_congr {s s' : State} {k : Nat} (h1 : (s'.subs k).id = (s.subs k).id)
    (h2 : (s'.subs k).from_ = (s.subs k).from_) (h3 : visible s' k = visible s k)
    (h4 : s'.received = s.received) : due s' k = due s k := by
  unfold due; rw [h1, h2, h3, h4]

theorem InvReq.same {s s' : State} (h : InvReq s) (h1 : s'.subs = s.subs)
    (h2 : s'.nsub = s.nsub) (h3 : s'.phase = s.phase) (h4 : s'.received = s.received) :
    InvReq s' := by
  intro k hk hkr
  rw [h2] at hk; rw [h1] at hkr
  refine gotRight_congr (h k hk hkr) (by rw [h1]) (by rw [h1]) (due_congr (by rw [h1]) (by rw [h1]) ?_ h4)
  simp only [visible, State.seenCount, h1, h3, h4]

theorem InvReq.addSub {s : State} (h : InvReq s) (hl : InvLive s) (kd : Kind) (id : Nat) :
    InvReq (s.addSub kd id) := by
  intro k hk hkr
  by_cases e : k = s.nsub
  · subst e
    have hnew : visible (s.addSub kd id) s.nsub = s.doneCount := by
      simp only [visible, State.addSub, upd_self, Option.getD_none]
      cases hp : s.phase with
      | idle => simp [State.seenCount, State.doneCount, hp]
      | delivering i d c se =>
        have := (hl.cursor _ _ _ _ hp).1
        simp [State.seenCount, State.doneCount, hp, Nat.not_lt.2 this]
    have : due (s.addSub kd id) s.nsub = [] := by
      unfold due
      rw [hnew]
      simp only [State.addSub, upd_self]
      rw [window_empty (Nat.le_refl _)]; rfl
    unfold gotRight
    rw [this, hkr]
    simp [State.addSub]
  · have hk' : k < s.nsub := by have : k < s.nsub + 1 := hk; omega
    have e1 : (s.addSub kd id).subs k = s.subs k := by simp only [State.addSub, upd_ne _ _ e]
    rw [e1] at hkr
    refine gotRight_congr (h k hk' hkr) (by rw [e1]) (by rw [e1])
      (due_congr (by rw [e1]) (by rw [e1]) ?_ rfl)
    simp only [visible, e1]; rfl

theorem InvReq.unsubscribe {s : State} (h : InvReq s) (k : Nat) : InvReq (s.unsubscribe k) := by
  intro j hj hjr
  rw [State.unsubscribe_nsub] at hj
  have hsub : ((s.unsubscribe k).subs j).got = (s.subs j).got ∧
      ((s.unsubscribe k).subs j).kind = (s.subs j).kind ∧
      ((s.unsubscribe k).subs j).id = (s.subs j).id ∧
      ((s.unsubscribe k).subs j).from_ = (s.subs j).from_ := by
    rw [State.unsubscribe_subs]
    by_cases e : j = k
    · subst e; simp
    · simp [upd_ne _ _ e]
  rw [hsub.2.1] at hjr
  exact gotRight_congr (h j hj hjr) hsub.1 hsub.2.1
    (due_congr hsub.2.2.1 hsub.2.2.2 (visible_unsubscribe s k j) (by simp))

theorem InvReq.finish {s : State} (h : InvReq s) (l : List Nat) : InvReq (s.finish l) := by
  induction l generalizing s with
  | nil => exact h
  | cons k l ih => exact ih (h.unsubscribe k)

theorem dataOf_ne {id i : Nat} (d : Json) (h : id ≠ i) : dataOf id [(i, d)] = [] := by
  simp [dataOf, Ne.symm h]

/-- `InvReq` as long as ids are distinct. -/
theorem inv_req {s : State} (hr : Reachable s) (hd : s.issued.Pairwise (· < ·)) : InvReq s := by
  refine hr.induct (P := fun s => s.issued.Pairwise (· < ·) → InvReq s) ?_ ?_ hd
  · intro _ k hk; simp [init] at hk
  intro s l s' hr ih hst hd'
  have hlv := inv_live hr
  have hb := (inv_some hr).bound
  have hids := inv_ids hr
  -- one closure is called
  have visitCase : InvReq s → ∀ id data cursor settled k se',
      s.phase = .delivering id data cursor settled → nextSub s.live cursor = some k →
      InvReq { (s.call k id data).1 with phase := .delivering id data (k + 1) se' } := by
    intro h id data cursor settled k se' hp hn j hj hjr
    obtain ⟨h1, h2, h3, h4, h5⟩ := hlv.cursor _ _ _ _ hp
    obtain ⟨n1, n2, n3⟩ := nextSub_some hlv.sorted hn
    obtain ⟨pre, hpre⟩ : ∃ pre, s.received = pre ++ [(id, data)] := by
      rw [List.getLast?_eq_some_iff] at h3; exact h3
    simp only [State.call_nsub] at hj
    simp only [(call_sub s k id j data).1] at hjr
    by_cases e : j = k
    · subst e
      have hvk : visible { (s.call j id data).1 with phase := .delivering id data (j + 1) se' } j =
          s.received.length := by
        simp only [visible, (call_sub s j id j data).2.2.1, ((hlv.mem j).1 n1).2, Option.getD_none]
        simp [State.seenCount]
      have hvk0 : visible s j = pre.length := by
        simp only [visible, ((hlv.mem j).1 n1).2, Option.getD_none]
        simp [State.seenCount, hp, Nat.not_lt.2 n2, hpre]
      have hdone : s.doneCount = pre.length := by simp [State.doneCount, hp, hpre]
      have hbj := hb j hj
      have hg := h j hj hjr
      rw [hdone] at hbj
      unfold gotRight due at hg ⊢
      rw [hvk]
      rw [hvk0, hpre, window_snoc_le (Nat.le_refl _)] at hg
      simp only [(call_sub s j id j data).1, (call_sub s j id j data).2.1,
        (call_sub s j id j data).2.2.2, State.call_received, hpre, List.length_append,
        List.length_singleton, window_snoc hbj.1, dataOf_append, (call_got s j id data).1, hjr]
      simp only [hjr] at hg
      by_cases hid : (s.subs j).id = id
      · have hone : dataOf (s.subs j).id [(id, data)] = [data] := by simp [dataOf, hid]
        rw [hone, if_pos hid, hg]
        cases dataOf (s.subs j).id (window pre (s.subs j).from_ pre.length) <;> simp
      · rw [dataOf_ne data hid, if_neg hid, List.append_nil]
        exact hg
    · refine gotRight_congr (h j hj hjr) (by simp only [call_subs_other s id data e])
        (by simp only [call_subs_other s id data e])
        (due_congr (by simp only [call_subs_other s id data e])
          (by simp only [call_subs_other s id data e]) ?_ (by simp))
      simp only [visible, (call_sub s k id j data).2.2.1]
      cases hu : (s.subs j).until_ with
      | some n => simp
      | none =>
        have hjl : j ∈ s.live := (hlv.mem j).2 ⟨hj, hu⟩
        simp only [State.seenCount, hp, State.call_received, Option.getD_none]
        have : j < k + 1 ↔ j < cursor := by
          constructor
          · intro h; exact Nat.lt_of_not_le fun hc => by have := n3 j hjl hc; omega
          · intro h; omega
        simp [this]
  cases step_Step hst with
  | request ns m a =>
    have hd : s.issued.Pairwise (· < ·) := by
      unfold State.request at hd'; simp [State.issue] at hd'; exact (snoc_lt hd').1
    have h1 : InvLive (s.issue (s.newMsg ns m a)) := by refine InvLive.same hlv ?_ ?_ ?_ ?_ ?_ <;> rfl
    have h2 : InvReq (s.issue (s.newMsg ns m a)) := by
      refine InvReq.same (ih hd) ?_ ?_ ?_ ?_ <;> rfl
    refine InvReq.same (h2.addSub h1 .request (s.newMsg ns m a).id) ?_ ?_ ?_ ?_
    all_goals unfold State.request; simp
  | subscribe ns m a =>
    have hd : s.issued.Pairwise (· < ·) := by
      unfold State.subscribe at hd'; simp [State.issue] at hd'; exact (snoc_lt hd').1
    refine (ih hd).same ?_ ?_ ?_ ?_ <;> unfold State.subscribe <;> simp <;> rfl
  | attach => exact (ih hd').addSub hlv _ _
  | detach k hk hkd => exact (ih (by simpa using hd')).unsubscribe k
  | opened k hp hk =>
    rw [State.foldl_openAndSend_issued] at hd'
    refine InvReq.same (ih hd') ?_ ?_ ?_ ?_
    · rw [State.foldl_openAndSend_subs]; rfl
    · rw [State.foldl_openAndSend_nsub]; rfl
    · rw [State.foldl_openAndSend_phase]; rfl
    · rw [State.foldl_openAndSend_received]; rfl
  | failed k =>
    refine (ih (by simpa [State.onError] using hd')).same ?_ ?_ ?_ ?_ <;> simp <;> rfl
  | clean k =>
    refine (ih (by simpa [State.goneClean] using hd')).same ?_ ?_ ?_ ?_ <;> simp <;> rfl
  | closing k => exact (ih hd').same rfl rfl rfl rfl
  | method k id data hp =>
    intro j hj hjr
    refine gotRight_of_eq (ih hd' j hj hjr) rfl ?_ ⟨[(id, data)], rfl⟩ (hb j hj).2
    simp [visible, State.receive, State.seenCount, hp]
  | stream k id data hp =>
    intro j hj hjr
    refine gotRight_of_eq (ih hd' j hj hjr) rfl ?_ ⟨[(id, data)], rfl⟩ (hb j hj).2
    simp [visible, State.receive, State.seenCount, hp]
  | error => exact ih hd'
  | garbage => exact ih hd'
  | visitEnd id data cursor settled hp hn =>
    refine InvReq.finish (s := { s with phase := .idle }) ?_ settled
    intro j hj hjr
    refine gotRight_congr (ih (by simpa using hd') j hj hjr) rfl rfl (due_congr rfl rfl ?_ rfl)
    simp only [visible]
    cases hu : (s.subs j).until_ with
    | some n => simp
    | none =>
      have := nextSub_none hn j ((hlv.mem j).2 ⟨hj, hu⟩)
      simp [State.seenCount, hp, this]
  | visit id data cursor settled k hp hn =>
    exact visitCase (ih (by simpa using hd')) _ _ _ _ _ _ hp hn
  | visitThrow id data cursor settled k hp hn hid hkd =>
    have hd : s.issued.Pairwise (· < ·) := by simpa using hd'
    obtain ⟨h1, h2, h3, h4, h5⟩ := hlv.cursor _ _ _ _ hp
    obtain ⟨n1, n2, n3⟩ := nextSub_some hlv.sorted hn
    obtain ⟨pre, hpre⟩ : ∃ pre, s.received = pre ++ [(id, data)] := by
      rw [List.getLast?_eq_some_iff] at h3; exact h3
    have hstore : id ∈ s.stores := hid ▸ hids.cbs k (live_lt hlv n1) hkd
    refine InvReq.finish (s := { (s.call k id data).1 with phase := .idle, threw := true }) ?_ settled
    intro j hj hjr
    simp only [State.call_nsub] at hj
    simp only [(call_sub s k id j data).1] at hjr
    have e : j ≠ k := by rintro rfl; rw [hkd] at hjr; cases hjr
    have hne : (s.subs j).id ≠ id := fun he => (hids.reqs j hj hjr).2 hd (he ▸ hstore)
    refine gotRight_congr (ih hd j hj hjr) (by simp only [call_subs_other s id data e])
      (by simp only [call_subs_other s id data e]) ?_
    unfold due
    simp only [call_subs_other s id data e, State.call_received]
    have hdone : s.doneCount = pre.length := by simp [State.doneCount, hp, hpre]
    have hbj := hb j hj
    rw [hdone] at hbj
    simp only [visible, (call_sub s k id j data).2.2.1]
    cases hu : (s.subs j).until_ with
    | some n => simp
    | none =>
      simp only [Option.getD_none, State.seenCount, hp, State.call_received]
      split
      · rfl
      · rw [hpre]
        simp only [List.length_append, List.length_singleton, Nat.add_sub_cancel]
        rw [window_snoc hbj.1, window_snoc_le (Nat.le_refl _), dataOf_append, dataOf_ne data hne,
          List.append_nil]
  | timer => refine (ih (by simpa using hd')).same ?_ ?_ ?_ ?_ <;> simp

end Verif.Client
