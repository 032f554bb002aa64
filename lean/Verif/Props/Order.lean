import Verif.System.CallOrder
import Verif.Props.System

/-!
# The order of calls: properties C73, C74

Specification: `Verif/Spec/Order.lean`, `Verif/Spec/System.lean`.
-/

namespace Verif.Props
open Verif Verif.System Verif.ServerSpec Verif.SystemSpec

variable {σ C : Type}

/-! ## C73: calls take effect in one order, which respects time -/

/-- A call made in `s₃` that is executed later is executed after everything executed by `s₃`. -/
private theorem executed_later {sv : Service σ C} {b : σ} {s₃ s₄ s : State σ C} {j : Nat} {ns' m' : Str} {a' : List Json}
    {l : Client.Label} {ls' : List Label} (hr3 : Reachable sv b s₃)
    (hl : l = .request ns' m' a' ∨ l = .subscribe ns' m' a') (h₂ : step sv s₃ (.client j l) = some s₄)
    (hrun' : run sv s₄ ls' = some s) (hn : (s.clients j).calls.length ≤ 2 ^ 53)
    {before after : List (Nat × Server.Input)} {c k : Nat} (ho : s.owner c = some (j, k))
    (hlog : s.server.log = before ++ (c, lastRequest s₄ j ns' m' a') :: after) :
    s₃.server.log <+: before ∧ ∀ c' < s₃.server.nconn, s.owner c' = s₃.owner c' := by
  obtain ⟨a1, a2, a3⟩ := run_log hrun'
  obtain ⟨_, _, e3, e4⟩ := call_step hl h₂
  rw [e3] at a1 a2 a3
  have hnew : (c, lastRequest s₄ j ns' m' a') ∉ s₃.server.log := by
    intro hm
    have hlt := log_nconn hr3 hm
    refine call_new hr3 hl h₂ (Nat.le_trans (run_clients hrun' j).length_le hn) (k := k) ?_ hm
    rw [← e4, ← a3 c hlt]
    exact ho
  exact ⟨after_prefix a1 hlog hnew, fun c' hc => by rw [a3 c' hc, e4]⟩

/-- **C73, real time.** A client makes a request (`s₁` to `s₂`), its promise resolves (by `s₃`), and then some client, the same or
another, calls a function (`s₃` to `s₄`). If the server executes this call, it has executed the request before. Whatever happens
otherwise: failures, panics and foreign clients included. -/
theorem C73_real_time {sv : Service σ C} {b : σ} {s₁ s₂ s₃ s₄ s : State σ C} {i j : Nat} {ns m ns' m' : Str}
    {a a' : List Json} {l : Client.Label} {ls ls' : List Label} (hr : Reachable sv b s₁)
    (h₁ : step sv s₁ (.client i (.request ns m a)) = some s₂) (hrun : run sv s₂ ls = some s₃) (hd : promise s₁ i s₃ ≠ [])
    (hl : l = .request ns' m' a' ∨ l = .subscribe ns' m' a') (h₂ : step sv s₃ (.client j l) = some s₄)
    (hrun' : run sv s₄ ls' = some s) (hn : ∀ i, (s.clients i).calls.length ≤ 2 ^ 53)
    {before after : List (Nat × Server.Input)} {c k : Nat} (ho : s.owner c = some (j, k))
    (hlog : s.server.log = before ++ (c, lastRequest s₄ j ns' m' a') :: after) :
    ∃ c' k', s.owner c' = some (i, k') ∧ (c', lastRequest s₂ i ns m a) ∈ before := by
  have hr3 := (hr.step h₁).run hrun
  have hn3 : (s₃.clients i).calls.length ≤ 2 ^ 53 :=
    Nat.le_trans (calls_back h₂ i).length_le (Nat.le_trans (run_clients hrun' i).length_le (hn i))
  obtain ⟨d, hd⟩ := List.exists_mem_of_ne_nil _ hd
  obtain ⟨c', k', l₁, l₂, ho', hl', _⟩ := (C49_value hr h₁ hrun hn3).2 d hd
  obtain ⟨a1, a2⟩ := executed_later hr3 hl h₂ hrun' (hn j) ho hlog
  have hmem : (c', lastRequest s₂ i ns m a) ∈ s₃.server.log := by rw [hl']; simp
  exact ⟨c', k', by rw [a2 c' (log_nconn hr3 hmem)]; exact ho', a1.subset hmem⟩

/-- **C73, values.** A request resolves with `d₁` before another request, of the same client or another, is made, which resolves with
`d₂`. Then the server has executed the first, later the second; `d₁` is what the first gives on the state left by the requests before
it, and `d₂` what the second gives on the state left by the requests before it, the first among them. So calls take effect one after
the other, at a moment between the call and its answer. -/
theorem C73_values {sv : Service σ C} {b : σ} {s₁ s₂ s₃ s₄ s : State σ C} {i j : Nat} {ns m ns' m' : Str}
    {a a' : List Json} {ls ls' : List Label} {d₁ d₂ : Json} (hr : Reachable sv b s₁)
    (h₁ : step sv s₁ (.client i (.request ns m a)) = some s₂) (hrun : run sv s₂ ls = some s₃) (hd₁ : d₁ ∈ promise s₁ i s₃)
    (h₂ : step sv s₃ (.client j (.request ns' m' a')) = some s₄)
    (hrun' : run sv s₄ ls' = some s) (hd₂ : d₂ ∈ promise s₃ j s) (hn : ∀ i, (s.clients i).calls.length ≤ 2 ^ 53) :
    ∃ c₁ c₂ k₁ k₂ before between after, s.owner c₁ = some (i, k₁) ∧ s.owner c₂ = some (j, k₂) ∧
      s.server.log = before ++ (c₁, lastRequest s₂ i ns m a) :: between ++ (c₂, lastRequest s₄ j ns' m' a') :: after ∧
      Gives sv (replay sv b before) (lastRequest s₂ i ns m a) d₁ ∧
      Gives sv (replay sv b (before ++ (c₁, lastRequest s₂ i ns m a) :: between)) (lastRequest s₄ j ns' m' a') d₂ := by
  have hr3 := (hr.step h₁).run hrun
  have hn3 : (s₃.clients i).calls.length ≤ 2 ^ 53 :=
    Nat.le_trans (calls_back h₂ i).length_le (Nat.le_trans (run_clients hrun' i).length_le (hn i))
  obtain ⟨c₁, k₁, l₁, l₂, ho₁, hl₁, g₁⟩ := (C49_value hr h₁ hrun hn3).2 d₁ hd₁
  obtain ⟨c₂, k₂, x, y, ho₂, hl₂, g₂⟩ := (C49_value hr3 h₂ hrun' (hn j)).2 d₂ hd₂
  obtain ⟨⟨t, ht⟩, a2⟩ := executed_later hr3 (.inl rfl) h₂ hrun' (hn j) ho₂ hl₂
  have hx : x = l₁ ++ (c₁, lastRequest s₂ i ns m a) :: (l₂ ++ t) := by rw [← ht, hl₁]; simp
  refine ⟨c₁, c₂, k₁, k₂, l₁, l₂ ++ t, y, ?_, ho₂, by rw [hl₂, hx], g₁, by rw [← hx]; exact g₂⟩
  have hmem : (c₁, lastRequest s₂ i ns m a) ∈ s₃.server.log := by
    rw [hl₁]; exact List.mem_append_right _ (List.mem_cons_self ..)
  rw [a2 c₁ (log_nconn hr3 hmem)]
  exact ho₁

/-- **C73, linearizability.** Take any history and all the requests in it whose promise has resolved by its end. To each, named by the
moment `p` at which it was made, belongs a place `place p` in the list of requests that the server has executed, such that: it is this
request that was executed there; the promise resolved with what the request gives on the state left by the requests executed before;
no two requests have the same place; and a request made after the promise of another had resolved has a later place. -/
theorem C73_linearizable {sv : Service σ C} {b : σ} {ls : List Label} {s : State σ C} (h : run sv (init b) ls = some s)
    (hn : ∀ i, (s.clients i).calls.length ≤ 2 ^ 53) :
    ∃ place : Nat → Nat,
      (∀ p i ns m a d, ls[p]? = some (.client i (.request ns m a)) → Resolved sv b ls p i ls.length d →
        ∃ c k s₂, run sv (init b) (ls.take (p + 1)) = some s₂ ∧ s.owner c = some (i, k) ∧
          s.server.log[place p]? = some (c, lastRequest s₂ i ns m a) ∧
          Gives sv (replay sv b (s.server.log.take (place p))) (lastRequest s₂ i ns m a) d) ∧
      (∀ p q i j ns m a ns' m' a' d d' n, ls[p]? = some (.client i (.request ns m a)) →
        ls[q]? = some (.client j (.request ns' m' a')) → Resolved sv b ls p i n d → n ≤ q →
        Resolved sv b ls q j ls.length d' → place p < place q) ∧
      (∀ p q i j ns m a ns' m' a' d d', ls[p]? = some (.client i (.request ns m a)) →
        ls[q]? = some (.client j (.request ns' m' a')) → Resolved sv b ls p i ls.length d →
        Resolved sv b ls q j ls.length d' → place p = place q → p = q) := by
  classical
  have hr : Reachable sv b s := ⟨_, h⟩
  have hnd := fun i => (C49_at_most_once hr i (hn i)).1
  -- `x` is a place where the request of step `p` was executed
  let At (p x : Nat) : Prop := ∃ i ns m a s₂ c k, ls[p]? = some (.client i (.request ns m a)) ∧
    run sv (init b) (ls.take (p + 1)) = some s₂ ∧ s.owner c = some (i, k) ∧
    s.server.log[x]? = some (c, lastRequest s₂ i ns m a)
  have huniq : ∀ p x y, At p x → At p y → x = y := by
    rintro p x y ⟨i, ns, m, a, s₂, c, k, e1, e2, e3, e4⟩ ⟨i', ns', m', a', s₂', c', k', f1, f2, f3, f4⟩
    rw [e1] at f1; cases f1
    rw [e2] at f2; cases f2
    exact place_unique (hnd i) e4 f4 (by simp [e3]) (by simp [f3]) rfl
  let place (p : Nat) : Nat := if hp : ∃ x, At p x then hp.choose else 0
  have hplace : ∀ p x, At p x → place p = x := by
    intro p x hx
    have hp : ∃ x, At p x := ⟨x, hx⟩
    have : place p = hp.choose := by simp only [place]; rw [dif_pos hp]
    rw [this]
    exact huniq p _ _ hp.choose_spec hx
  have hall : run sv (init b) (ls.take ls.length) = some s := by rw [List.take_length]; exact h
  -- every resolved request has been executed when it is resolved
  have hexec : ∀ p i ns m a d n, n ≤ ls.length → ls[p]? = some (.client i (.request ns m a)) → Resolved sv b ls p i n d →
      ∃ s₂ sn c k before after, run sv (init b) (ls.take (p + 1)) = some s₂ ∧ run sv (init b) (ls.take n) = some sn ∧
        s.owner c = some (i, k) ∧ sn.server.log = before ++ (c, lastRequest s₂ i ns m a) :: after ∧
        s.server.log[before.length]? = some (c, lastRequest s₂ i ns m a) ∧ s.server.log.take before.length = before ∧
        Gives sv (replay sv b before) (lastRequest s₂ i ns m a) d := by
    rintro p i ns m a d n hle hp ⟨hlt, s₁, sn, r1, r2, hd⟩
    obtain ⟨s₁', s₂, r1', hst, r3, hlater⟩ := run_at h hp
    rw [r1] at r1'; cases r1'
    obtain ⟨ls', hls'⟩ := run_between hle r2 hall
    have hnn : (sn.clients i).calls.length ≤ 2 ^ 53 := Nat.le_trans (run_clients hls' i).length_le (hn i)
    obtain ⟨c, k, before, after, ho, hlog, hg⟩ := (C49_value ⟨_, r1⟩ hst (hlater n hlt sn r2) hnn).2 d hd
    obtain ⟨⟨t, ht⟩, _, a3⟩ := run_log hls'
    have hmem : (c, lastRequest s₂ i ns m a) ∈ sn.server.log := by
      rw [hlog]; exact List.mem_append_right _ (List.mem_cons_self ..)
    have hs : s.server.log = before ++ (c, lastRequest s₂ i ns m a) :: (after ++ t) := by rw [← ht, hlog]; simp
    refine ⟨s₂, sn, c, k, before, after, r3, r2, ?_, hlog, ?_, ?_, hg⟩
    · rw [a3 c (log_nconn ⟨_, r2⟩ hmem)]; exact ho
    · rw [hs]; simp
    · rw [hs]; simp
  refine ⟨place, ?_, ?_, ?_⟩
  · intro p i ns m a d hp hres
    obtain ⟨s₂, sn, c, k, before, after, r1, r2, ho, _, hx, ht, hg⟩ := hexec p i ns m a d _ (Nat.le_refl _) hp hres
    have := hplace p before.length ⟨i, ns, m, a, s₂, c, k, hp, r1, ho, hx⟩
    exact ⟨c, k, s₂, r1, ho, by rw [this]; exact hx, by rw [this, ht]; exact hg⟩
  · intro p q i j ns m a ns' m' a' d d' n hp hq hres hle hres'
    have hql : q < ls.length := (List.getElem?_eq_some_iff.1 hq).1
    obtain ⟨s₂, sn, c, k, before, after, r1, r2, ho, hlog, hx, ht, hg⟩ := hexec p i ns m a d n (by omega) hp hres
    obtain ⟨s₂', _, c', k', before', after', r1', r2', ho', hlog', hx', _, _⟩ :=
      hexec q j ns' m' a' d' _ (Nat.le_refl _) hq hres'
    rw [hall] at r2'; cases r2'
    rw [hplace p before.length ⟨i, ns, m, a, s₂, c, k, hp, r1, ho, hx⟩,
      hplace q before'.length ⟨j, ns', m', a', s₂', c', k', hq, r1', ho', hx'⟩]
    obtain ⟨s₃, s₄, q1, q2, q3, q4⟩ := run_at h hq
    rw [r1'] at q3; cases q3
    have hrun' := q4 ls.length hql s hall
    obtain ⟨b1, _⟩ := executed_later ⟨_, q1⟩ (.inl rfl) q2 hrun' (hn j) ho' hlog'
    obtain ⟨ls', hls'⟩ := run_between hle r2 q1
    have hlen := ((run_log hls').1.trans b1).length_le
    rw [hlog, List.length_append, List.length_cons] at hlen
    omega
  · intro p q i j ns m a ns' m' a' d d' hp hq hres hres' he
    obtain ⟨s₂, _, c, k, before, after, r1, _, ho, _, hx, _, _⟩ := hexec p i ns m a d _ (Nat.le_refl _) hp hres
    obtain ⟨s₂', _, c', k', before', after', r1', _, ho', _, hx', _, _⟩ := hexec q j ns' m' a' d' _ (Nat.le_refl _) hq hres'
    rw [hplace p before.length ⟨i, ns, m, a, s₂, c, k, hp, r1, ho, hx⟩,
      hplace q before'.length ⟨j, ns', m', a', s₂', c', k', hq, r1', ho', hx'⟩] at he
    rw [← he, hx] at hx'
    simp only [Option.some.injEq, Prod.mk.injEq] at hx'
    obtain ⟨rfl, heq⟩ := hx'
    rw [ho] at ho'
    simp only [Option.some.injEq, Prod.mk.injEq] at ho'
    obtain ⟨rfl, _⟩ := ho'
    have key : ∀ p q ns m a ns' m' a' s₂ s₂', p < q → ls[p]? = some (.client i (.request ns m a)) →
        ls[q]? = some (.client i (.request ns' m' a')) → run sv (init b) (ls.take (p + 1)) = some s₂ →
        run sv (init b) (ls.take (q + 1)) = some s₂' → lastRequest s₂ i ns m a = lastRequest s₂' i ns' m' a' → False := by
      clear heq hx ho hp hq hres hres' r1 r1'
      intro p q ns m a ns' m' a' s₂ s₂' hlt hp hq r1 r1' heq
      obtain ⟨s₁, t₂, q1, q2, q3, _⟩ := run_at h hp
      rw [r1] at q3; cases q3
      obtain ⟨s₃, s₄, u1, u2, u3, u4⟩ := run_at h hq
      rw [r1'] at u3; cases u3
      obtain ⟨ls', hls'⟩ := run_between (by omega) r1 u1
      have hql : q < ls.length := (List.getElem?_eq_some_iff.1 hq).1
      have hn4 : (s₂'.clients i).calls.length ≤ 2 ^ 53 :=
        Nat.le_trans (run_clients (u4 ls.length hql s hall) i).length_le (hn i)
      obtain ⟨_, hA, _, _⟩ := call_step (.inl rfl) q2
      obtain ⟨hid, hB, _, _⟩ := call_step (.inl rfl) u2
      rw [hB, List.length_append] at hn4
      simp only [List.length_cons, List.length_nil] at hn4
      have hr3 : Reachable sv b s₃ := ⟨_, u1⟩
      refine new_id (hr3.client i) (by omega) (lastMessage s₂ i ns m a)
        ((run_clients hls' i).subset (by rw [hA]; simp)) ?_
      rw [← hid]
      simp only [lastRequest, requestOf, Except.ok.injEq, Request.exec.injEq] at heq
      exact heq.1
    rcases Nat.lt_trichotomy p q with hlt | e | hlt
    · exact (key p q _ _ _ _ _ _ _ _ hlt hp hq r1 r1' heq).elim
    · exact e
    · exact (key q p _ _ _ _ _ _ _ _ hlt hq hp r1' r1 heq.symm).elim

/-- **C73, streams.** The same when what comes first is an item of a stream: if a callback has been called, calls made after that are
executed after the stream was started. -/
theorem C73_stream {sv : Service σ C} {b : σ} {s₁ s₂ s₂' s₃ s₄ s : State σ C} {i j : Nat} {ns m ns' m' : Str}
    {a a' : List Json} {l : Client.Label} {ls ls' : List Label} (hr : Reachable sv b s₁)
    (h₁ : step sv s₁ (.client i (.subscribe ns m a)) = some s₂)
    (hatt : step sv s₂ (.client i (.attach (s₂.clients i).reqId)) = some s₂')
    (hrun : run sv s₂' ls = some s₃) (hd : calledWith s₂ i s₃ ≠ [])
    (hl : l = .request ns' m' a' ∨ l = .subscribe ns' m' a') (h₂ : step sv s₃ (.client j l) = some s₄)
    (hrun' : run sv s₄ ls' = some s) (hn : ∀ i, (s.clients i).calls.length ≤ 2 ^ 53)
    {before after : List (Nat × Server.Input)} {c k : Nat} (ho : s.owner c = some (j, k))
    (hlog : s.server.log = before ++ (c, lastRequest s₄ j ns' m' a') :: after) :
    ∃ c' k', s.owner c' = some (i, k') ∧ (c', lastRequest s₂ i ns m a) ∈ before := by
  have hr3 := ((hr.step h₁).step hatt).run hrun
  have hn3 : (s₃.clients i).calls.length ≤ 2 ^ 53 :=
    Nat.le_trans (calls_back h₂ i).length_le (Nat.le_trans (run_clients hrun' i).length_le (hn i))
  have hn2 : (s₂.clients i).calls.length ≤ 2 ^ 53 :=
    Nat.le_trans (calls_back hatt i).length_le (Nat.le_trans (run_clients hrun i).length_le hn3)
  obtain ⟨d, hd⟩ := List.exists_mem_of_ne_nil _ hd
  obtain ⟨c', k', ho', _, l₁, l₂, hl', _⟩ := ((attach_made hr h₁ hatt hn2).later hrun).source hn3 hd
  obtain ⟨a1, a2⟩ := executed_later hr3 hl h₂ hrun' (hn j) ho hlog
  have hmem : (c', lastRequest s₂ i ns m a) ∈ s₃.server.log := by rw [hl']; exact List.mem_append_right _ (List.mem_cons_self ..)
  exact ⟨c', k', by rw [a2 c' (log_nconn hr3 hmem)]; exact ho', a1.subset hmem⟩

section
private def add (i : Nat) (n : Int) : Label := .client i (.request (lit "Counter") (lit "add") [.num (.int n)])
/-- What it takes for a request on socket 0 of client `i`, connection `c`, to be answered. -/
private def serve (i c k : Nat) : List Label :=
  [.accept i k, .opened c, .deliver c, .server .take, .server .methodDone, .server (.flush c), .respond c,
   .client i .visit, .client i .visit]

/-- Client 0 adds 1 and gets the answer 1; then client 1 adds 2 and gets the answer 3. -/
example : ∃ s₁ s₂ s, run Demo.sv (init [0]) (add 0 1 :: serve 0 0 0) = some s₁ ∧ step Demo.sv s₁ (add 1 2) = some s₂ ∧
    run Demo.sv s₂ (serve 1 1 0) = some s ∧
    ((promise (init (σ := List Nat) (C := Call Nat) [0]) 0 s₁).length, (promise s₁ 1 s).length, s.server.log.length) = (1, 1, 2) := by
  obtain ⟨s₁, s₂, s, h1, h2, h3, h4⟩ := runTwo_sound (sv := Demo.sv) (b := [0]) (ls₁ := add 0 1 :: serve 0 0 0) (l := add 1 2)
    (ls₂ := serve 1 1 0) (check := fun s₁ _ s => ((promise (init (σ := List Nat) (C := Call Nat) [0]) 0 s₁).length,
      (promise s₁ 1 s).length, s.server.log.length) == (1, 1, 2)) (by decide +kernel)
  exact ⟨s₁, s₂, s, h1, h2, h3, by simpa using h4⟩

private def resolvedB (sv : Service σ C) (b : σ) (ls : List Label) (p i n : Nat) : Bool :=
  decide (p < n) && match run sv (init b) (ls.take p), run sv (init b) (ls.take n) with
    | some s₁, some s => !(promise s₁ i s).isEmpty
    | _, _ => false

private theorem resolvedB_sound {sv : Service σ C} {b : σ} {ls : List Label} {p i n : Nat} (h : resolvedB sv b ls p i n = true) :
    ∃ d, Resolved sv b ls p i n d := by
  simp only [resolvedB, Bool.and_eq_true, decide_eq_true_eq] at h
  obtain ⟨hlt, h⟩ := h
  split at h
  · rename_i s₁ s h1 h2
    simp only [Bool.not_eq_true', List.isEmpty_eq_false_iff] at h
    obtain ⟨d, hd⟩ := List.exists_mem_of_ne_nil _ h
    exact ⟨d, hlt, s₁, s, h1, h2, hd⟩
  · cases h

/-- In this history the request of step 0 has resolved before step 10, in which the other is made, which has resolved at the end. -/
example : let ls := add 0 1 :: serve 0 0 0 ++ add 1 2 :: serve 1 1 0
    (∃ s, run Demo.sv (init [0]) ls = some s) ∧ ls[10]? = some (add 1 2) ∧
    (∃ d, Resolved Demo.sv [0] ls 0 0 10 d) ∧ ∃ d, Resolved Demo.sv [0] ls 10 1 ls.length d :=
  ⟨Option.isSome_iff_exists.1 (by decide +kernel), rfl, resolvedB_sound (by decide +kernel), resolvedB_sound (by decide +kernel)⟩

/-- Client 0 subscribes to a stream and gets an item; then client 1 adds 2, which is executed. -/
example : ∃ s₁ s₂ s, run Demo.sv (init [0]) (.client 0 (.subscribe (lit "Counter") (lit "ticks") [.num (.int 5)]) ::
      .client 0 (.attach 1) :: [.accept 0 0, .opened 0, .deliver 0, .server .take, .server (.poll 0), .server (.item 0), .server (.flush 0),
      .respond 0, .client 0 .visit]) = some s₁ ∧ step Demo.sv s₁ (add 1 2) = some s₂ ∧
    run Demo.sv s₂ (serve 1 1 0) = some s ∧ ((s₁.clients 0).subs 0).got.length = 1 ∧ s.server.log.length = 2 ∧
      s.owner 1 = some (1, 0) := by
  obtain ⟨s₁, s₂, s, h1, h2, h3, h4⟩ := runTwo_sound (sv := Demo.sv) (b := [0])
    (ls₁ := .client 0 (.subscribe (lit "Counter") (lit "ticks") [.num (.int 5)]) ::
      .client 0 (.attach 1) :: [.accept 0 0, .opened 0, .deliver 0, .server .take, .server (.poll 0), .server (.item 0), .server (.flush 0),
      .respond 0, .client 0 .visit]) (l := add 1 2)
    (ls₂ := serve 1 1 0) (check := fun s₁ _ s => ((s₁.clients 0).subs 0).got.length == 1 && s.server.log.length == 2 &&
      s.owner 1 == some (1, 0)) (by decide +kernel)
  simp only [Bool.and_eq_true, beq_iff_eq] at h4
  exact ⟨s₁, s₂, s, h1, h2, h3, h4.1.1, h4.1.2, h4.2⟩
end

/-! ## C74: calls of one client are executed in the order in which it made them -/

/-- The full statement of C74: in a history without network failures, without panics and with generated clients only, the server
executes the calls of a client in the order in which it made them. -/
def C74_statement : Prop :=
  ∀ (σ C : Type) (sv : Service σ C) (b : σ) (s : State σ C) (i : Nat) (ls : List Label),
    run sv (init b) ls = some s → Calm sv (init b) ls → (∀ l ∈ ls, Label.harmless l = true ∧ Label.generated sv l) →
    (executedOf s i).Sublist (callsOf s i)

section
/-- A client adds 1, subscribes to a stream while the request is on its way, and attaches no callback. The answer comes, so the client
closes its socket; then it adds 2 on a new socket. The network carries the second addition before the subscription. -/
private def overtaken : List Label :=
  [add 0 1, .accept 0 0, .opened 0, .client 0 (.subscribe (lit "Counter") (lit "ticks") [.num (.int 5)]), .deliver 0,
   .server .take, .server .methodDone, .server (.flush 0), .respond 0, .client 0 .visit, .client 0 .visit,
   add 0 2, .accept 0 1, .opened 1, .deliver 1, .server .take, .server .methodDone, .deliver 0, .server .take]

private theorem overtaken_trace : ∃ s, run Demo.sv (init [0]) overtaken = some s ∧
    (executedOf s 0).map idOf = [1, 3, 2] ∧ (s.clients 0).calls.map (·.id) = [1, 2, 3] := by
  have h : (match run Demo.sv (init [0]) overtaken with
      | some s => (executedOf s 0).map idOf == [1, 3, 2] && (s.clients 0).calls.map (·.id) == [1, 2, 3]
      | none => false) = true := by decide +kernel
  split at h
  · rename_i s hs
    simp only [Bool.and_eq_true, beq_iff_eq] at h
    exact ⟨s, hs, h.1, h.2⟩
  · cases h

/-- C74 is false of this code: a client closes its socket as soon as no subscription is left (`websocket_client.ts:114-119`), even if
it has just sent the request of a stream nobody listens to yet; the next call opens a new socket, and the server reads the two
connections in any order (`src/rpc/servers/axum.rs:30-56`). -/
theorem C74_violated : ¬ C74_statement := by
  intro h
  obtain ⟨s, hs, h1, h2⟩ := overtaken_trace
  obtain ⟨hc, hg⟩ := niceB_sound (sv := Demo.sv) (b := [0]) (ls := overtaken) (by decide +kernel)
  have := (h _ _ Demo.sv [0] s 0 overtaken hs hc hg).map idOf
  rw [callsOf_ids, h1, h2] at this
  revert this
  decide
end

/-- **C74, one connection.** The part that holds in every history: the calls carried by one connection are executed in the order in
which the client made them. Missing: calls on different connections of the client. -/
theorem C74_partial {sv : Service σ C} {b : σ} {s : State σ C} (hr : Reachable sv b s) {c i k : Nat}
    (ho : s.owner c = some (i, k)) : (executedOn s c).Sublist (callsOf s i) :=
  conn_order hr ho

/-- Two calls on one connection, both executed. -/
example : ∃ s, run Demo.sv (init [0]) [add 0 1, .client 0 (.subscribe (lit "Counter") (lit "ticks") [.num (.int 5)]),
    .accept 0 0, .opened 0, .deliver 0, .deliver 0, .server .take, .server .methodDone, .server .take] = some s ∧
    s.owner 0 = some (0, 0) ∧ (executedOn s 0).map idOf = [1, 2] := ⟨_, rfl, rfl, rfl⟩

/-- **C74, requests.** The part that holds in calm histories: if the client makes a request (`s₁` to `s₂`) and then a call of either
kind (`s₃` to `s₄`), and the server executes both, it executes the request first, whatever connections they travel on. Missing:
subscriptions that are overtaken by later calls. -/
theorem C74_requests_partial {sv : Service σ C} {b : σ} {s₁ s₂ s₃ s₄ s : State σ C} {i : Nat} {ns m ns' m' : Str}
    {a a' : List Json} {l : Client.Label} {ls₁ ls₂ ls₃ : List Label} (h₁ : run sv (init b) ls₁ = some s₁)
    (h₂ : step sv s₁ (.client i (.request ns m a)) = some s₂) (h₃ : run sv s₂ ls₂ = some s₃)
    (hl : l = .request ns' m' a' ∨ l = .subscribe ns' m' a') (h₄ : step sv s₃ (.client i l) = some s₄)
    (h₅ : run sv s₄ ls₃ = some s) (hcalm : Calm sv (init b) (ls₁ ++ .client i (.request ns m a) :: ls₂))
    (hn : ∀ i, (s.clients i).calls.length ≤ 2 ^ 53)
    {before after : List (Nat × Server.Input)} {c₁ k₁ c₂ k₂ : Nat}
    (ho₁ : s.owner c₁ = some (i, k₁)) (ho₂ : s.owner c₂ = some (i, k₂))
    (hlog : s.server.log = before ++ (c₂, lastRequest s₄ i ns' m' a') :: after)
    (hmem : (c₁, lastRequest s₂ i ns m a) ∈ s.server.log) : (c₁, lastRequest s₂ i ns m a) ∈ before := by
  have hr1 : Reachable sv b s₁ := ⟨_, h₁⟩
  have hr2 := hr1.step h₂
  have hr3 := hr2.run h₃
  have hr4 := hr3.step h₄
  have hr := hr4.run h₅
  have hall : run sv (init b) (ls₁ ++ .client i (.request ns m a) :: ls₂) = some s₃ := by
    rw [run_append, h₁]; simp [run, h₂, h₃]
  have hn4 : (s₄.clients i).calls.length ≤ 2 ^ 53 := Nat.le_trans (run_clients h₅ i).length_le (hn i)
  have hn3 : (s₃.clients i).calls.length ≤ 2 ^ 53 := Nat.le_trans (calls_back h₄ i).length_le hn4
  have hn2 : (s₂.clients i).calls.length ≤ 2 ^ 53 := Nat.le_trans (run_clients h₃ i).length_le hn3
  obtain ⟨_, hA, _, _⟩ := call_step (.inl rfl) h₂
  obtain ⟨_, hB, _, _⟩ := call_step hl h₄
  have hA3 : lastMessage s₂ i ns m a ∈ (s₃.clients i).calls := (run_clients h₃ i).subset (by rw [hA]; simp)
  have hB4 : lastMessage s₄ i ns' m' a' ∈ (s₄.clients i).calls := by rw [hB]; simp
  obtain ⟨q, hq⟩ := run_clients h₅ i
  have hcalls : (s.clients i).calls = (s₃.clients i).calls ++ lastMessage s₄ i ns' m' a' :: q := by
    rw [← hq, hB]; simp
  -- both were transmitted
  have sentA : (k₁, lastMessage s₂ i ns m a) ∈ (s.clients i).sent := by
    obtain ⟨x, hx, e⟩ := log_message hr ho₁ hmem
    simp only [lastRequest, requestOf, Except.ok.injEq, Request.exec.injEq] at e
    have := call_unique (hr.client i) (hn i) (sent_calls (hr.client i) (sentOn_sent.1 hx))
      (m' := lastMessage s₂ i ns m a) (by rw [hcalls]; exact List.mem_append_left _ hA3) e.1.symm
    rw [← this]; exact sentOn_sent.1 hx
  have sentB : (k₂, lastMessage s₄ i ns' m' a') ∈ (s.clients i).sent := by
    obtain ⟨x, hx, e⟩ := log_message hr ho₂ (inp := lastRequest s₄ i ns' m' a') (by rw [hlog]; simp)
    simp only [lastRequest, requestOf, Except.ok.injEq, Request.exec.injEq] at e
    have := call_unique (hr.client i) (hn i) (sent_calls (hr.client i) (sentOn_sent.1 hx))
      (m' := lastMessage s₄ i ns' m' a') (by rw [hcalls]; simp) e.1.symm
    rw [← this]; exact sentOn_sent.1 hx
  -- the server task was running when the second call was made
  have hla : LoopAlive s₃.server := by
    apply Classical.byContradiction
    intro hdead
    have e := dead_log (show run sv s₃ (.client i l :: ls₃) = some s by simp [run, h₄, h₅]) hdead
    have hle := (executed_later hr3 hl h₄ h₅ (hn i) ho₂ hlog).1.length_le
    rw [← e, hlog] at hle
    simp only [List.length_append, List.length_cons] at hle
    omega
  have hS := calm_strict hall hcalm hla
  by_cases hd : promise s₁ i s₃ = []
  · -- the promise was pending, so both calls use the same socket
    have hk : k₁ = k₂ := by
      obtain ⟨cl, hcl⟩ := run_client i (show run sv s₃ (.client i l :: ls₃) = some s by simp [run, h₄, h₅])
      obtain ⟨cl', hcl'⟩ := run_client i h₅
      obtain ⟨hst, _⟩ := client_step h₄
      have hc3 := Client.inv_conn (hr3.client i)
      have hlateB := (run_late (hr4.client i) hcl' (hn i) hB4 k₂).1 sentB
      rcases (run_late (hr3.client i) hcl (hn i) hA3 k₁).1 sentA with hs | ⟨hw, _⟩
      · have hM := (request_made hr1 h₂ hn2).later h₃
        have hu : ((s₃.clients i).subs (s₁.clients i).nsub).until_ = none := by
          cases hu : ((s₃.clients i).subs (s₁.clients i).nsub).until_ with
          | none => rfl
          | some n => exact absurd hd ((Client.inv_live (hr3.client i)).kept _ hM.lt hM.kind (by rw [hu]; simp))
        have hopen := calm_protected hall hS i hn3 _ hM.lt hM.kind hu k₁ _ hs hM.id.symm
        have hready : (s₃.clients i).ready = some k₁ := by
          simp [Client.State.ready, (hc3.live k₁).1 (.inr hopen), hopen]
        have hB' : (k₁, lastMessage s₄ i ns' m' a') ∈ (s₄.clients i).sent :=
          call_ready hl hst hready
        exact (sent_unique (hr.client i) (hn i) (sentOn_sent.2 ((run_sent (hr4.client i) hcl').subset hB'))
          (sentOn_sent.2 sentB) rfl).1
      · have hsock := call_connecting hc3 hl hst hw
        rcases hlateB with hs | ⟨hw', _⟩
        · have := call_connecting_sent hc3 hl hst hw (p := (k₂, lastMessage s₄ i ns' m' a')) hs
          exfalso
          have hc := sent_calls (hr3.client i) this
          have hnd := calls_nodup (hr4.client i) hn4
          rw [hB, List.map_append, List.nodup_append] at hnd
          exact hnd.2.2 _ (List.mem_map.2 ⟨_, hc, rfl⟩) _ (by simp) rfl
        · have := ((Client.inv_conn (hr4.client i)).live k₂).1 (.inl hw')
          rw [hsock] at this
          exact Option.some.inj this
    subst hk
    have := (inv_own hr).inj _ _ _ ho₁ ho₂
    subst this
    exact same_conn hr (hn i) ho₁ hcalls hA3 hlog hmem
  · obtain ⟨c', k', ho', h'⟩ := C73_real_time hr1 h₂ h₃ hd hl h₄ h₅ hn ho₂ hlog
    obtain ⟨x, hx, e⟩ := log_message hr ho' (inp := lastRequest s₂ i ns m a) (by rw [hlog]; exact List.mem_append_left _ h')
    simp only [lastRequest, requestOf, Except.ok.injEq, Request.exec.injEq] at e
    have := (sent_unique (hr.client i) (hn i) hx (sentOn_sent.2 sentA) e.1.symm).1
    subst this
    have := (inv_own hr).inj _ _ _ ho' ho₁
    subst this
    exact h'

/-- A request is answered, so its socket is closed; a second one is made on a new socket. Both are executed. -/
example : ∃ s₁ s₂ s, run Demo.sv (init [0]) (add 0 1 :: serve 0 0 0) = some s₁ ∧ step Demo.sv s₁ (add 0 2) = some s₂ ∧
    run Demo.sv s₂ [.accept 0 1, .opened 1, .deliver 1, .server .take, .server .methodDone] = some s ∧
    Calm Demo.sv (init [0]) (add 0 1 :: serve 0 0 0) ∧ s.owner 0 = some (0, 0) ∧ s.owner 1 = some (0, 1) ∧
    s.server.log.map (fun p => (p.1, idOf p.2)) = [(0, 1), (1, 2)] := by
  obtain ⟨s₁, s₂, s, h1, h2, h3, h4⟩ := runTwo_sound (sv := Demo.sv) (b := [0]) (ls₁ := add 0 1 :: serve 0 0 0) (l := add 0 2)
    (ls₂ := [.accept 0 1, .opened 1, .deliver 1, .server .take, .server .methodDone])
    (check := fun _ _ s => s.owner 0 == some (0, 0) && s.owner 1 == some (0, 1) &&
      s.server.log.map (fun p => (p.1, idOf p.2)) == [(0, 1), (1, 2)]) (by decide +kernel)
  simp only [Bool.and_eq_true, beq_iff_eq] at h4
  exact ⟨s₁, s₂, s, h1, h2, h3, calmB_sound _ _ _ (by decide +kernel), h4.1.1, h4.1.2, h4.2⟩

end Verif.Props
