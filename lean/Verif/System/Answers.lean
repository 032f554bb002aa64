import Verif.System.Result

/-!
# The composed system: the answers to one request (proof helpers)
-/

namespace Verif.System
open Verif Verif.ServerSpec Verif.SystemSpec

variable {σ C : Type}

/-- The data responses carry for an id. -/
def dataFor (id : Nat) (l : List Response) : List (Nat × Json) :=
  (l.filterMap payload).filter (fun p => p.1 = id)

theorem dataFor_append (id : Nat) (a b : List Response) :
    dataFor id (a ++ b) = dataFor id a ++ dataFor id b := by
  simp [dataFor]

theorem dataFor_nil {id : Nat} {l : List Response}
    (h : ∀ r ∈ l, ∀ d, payload r ≠ some (id, d)) : dataFor id l = [] := by
  unfold dataFor
  rw [List.filter_eq_nil_iff]
  intro p hp
  obtain ⟨r, hr, hp⟩ := List.mem_filterMap.1 hp
  simp only [decide_eq_true_eq]
  rintro rfl
  exact h r hr p.2 hp

theorem dataFor_src {id : Nat} {key : Option Nat} {P : List (Option Nat × Response)}
    (h : ∀ p ∈ P, ∀ d, payload p.2 = some (id, d) → p.1 = key) :
    dataFor id (P.map (·.2)) = dataFor id ((P.filter (fun p => p.1 == key)).map (·.2)) := by
  induction P with
  | nil => rfl
  | cons p P ih =>
    have ih := ih (fun q hq => h q (List.mem_cons_of_mem _ hq))
    by_cases e : p.1 = key
    · rw [List.filter_cons, if_pos (by simp [e]), List.map_cons, List.map_cons,
        ← List.singleton_append, dataFor_append, ih, ← dataFor_append, List.singleton_append]
    · rw [List.filter_cons, if_neg (by simp [e]), List.map_cons, ← List.singleton_append,
        dataFor_append, ih]
      have : dataFor id [p.2] = [] := by
        refine dataFor_nil ?_
        intro r hr d hd
        rw [List.mem_singleton] at hr
        subst hr
        exact e (h p (by simp) d hd)
      rw [this, List.nil_append]

theorem repliesTo_append (sv : Service σ C) (c : Nat) (b : σ) (l₁ l₂ : List (Nat × Server.Input)) :
    repliesTo sv c b (l₁ ++ l₂) = repliesTo sv c b l₁ ++ repliesTo sv c (replay sv b l₁) l₂ := by
  induction l₁ generalizing b with
  | nil => rfl
  | cons p l ih => obtain ⟨c', i⟩ := p; simp only [List.cons_append, repliesTo, replay, ih,
      List.append_assoc]

theorem returns_exec {sv : Service σ C} {st : σ} {id : Nat} {ns m : Str} {a : List Json} {d : Json}
    (h : Returns sv st (requestOf id ns m a) d) :
    (exec1 sv st (requestOf id ns m a)).2 = some (.method id d) := by
  obtain ⟨id', v, call, e, hd, hs, hrun⟩ := h
  unfold requestOf at e ⊢
  simp only [Except.ok.injEq, Request.exec.injEq] at e
  obtain ⟨rfl, rfl⟩ := e
  simp only [exec1, hd, hs]
  cases hh : sv.runMethod st call with
  | mk b' r =>
    rw [hh] at hrun
    simp only at hrun
    subst hrun
    simp

/-- On a live connection, the answers to a method call that succeeds: one, with its result. -/
theorem answers_direct {sv : Service σ C} {b : σ} {s : State σ C} (hr : Reachable sv b s)
    {c i k : Nat} (ho : s.owner c = some (i, k)) (hn : (s.clients i).calls.length ≤ 2 ^ 53)
    {m : Client.Msg} (hm : m ∈ sentOn (s.clients i) k) {l₁ l₂ : List (Nat × Server.Input)}
    (hlog : s.server.log = l₁ ++ (c, requestOf m.id m.ns m.method m.args) :: l₂) {d : Json}
    (hret : Returns sv (replay sv b l₁) (requestOf m.id m.ns m.method m.args) d)
    (ha : (s.server.conns c).alive = true) :
    dataFor m.id ((s.server.conns c).produced.map (·.2)) = [(m.id, d)] := by
  -- an answer with the id is an answer to this very request
  have hsame : ∀ m' ∈ sentOn (s.clients i) k, m'.id = m.id → m' = m := fun m' hm' e =>
    (sent_unique (hr.client i) hn hm' hm e).2
  have hsrc : ∀ p ∈ (s.server.conns c).produced, ∀ d', payload p.2 = some (m.id, d') →
      p.1 = none := by
    intro p hp d' hd
    obtain ⟨src, r⟩ := p
    obtain ⟨m', hm', e, l₁', l₂', hl', hc⟩ := answer_source hr ho hp hd
    have := hsame m' hm' e
    subst this
    obtain ⟨rfl, _, rfl⟩ := log_unique hr hn ho ho hlog hl'
    rcases hc with ⟨h, _⟩ | ⟨items, j, _, hst, _⟩
    · exact h
    · exfalso
      obtain ⟨id1, v1, c1, e1, d1, s1, _⟩ := hret
      obtain ⟨id2, v2, c2, e2, d2, s2, _⟩ := hst
      rw [e1] at e2
      simp only [Except.ok.injEq, Request.exec.injEq] at e2
      obtain ⟨rfl, rfl⟩ := e2
      rw [d1] at d2; cases d2
      rw [s1] at s2; cases s2
  rw [dataFor_src (key := none) hsrc]
  have hrep := (Server.inv_replies hr.server c).1 ha
  unfold Server.Conn.replies at hrep
  have : ((s.server.conns c).produced.filter (fun p => p.1 == none)).map (·.2) =
      repliesTo sv c b s.server.log := by rw [← hrep]
  rw [this, hlog, repliesTo_append, dataFor_append]
  have hex := returns_exec hret
  have e1 : dataFor m.id (repliesTo sv c b l₁) = [] := by
    refine dataFor_nil ?_
    intro r hmem d' hd
    obtain ⟨a₁, inp, a₂, e, hx⟩ := mem_repliesTo hmem
    have hl' : s.server.log = a₁ ++ (c, inp) ::
        (a₂ ++ (c, requestOf m.id m.ns m.method m.args) :: l₂) := by rw [hlog, e]; simp
    obtain ⟨m', hm', rfl⟩ := log_message hr ho (inp := inp) (by rw [hl']; simp)
    have : m'.id = m.id := by
      simp only [requestOf, exec1] at hx
      split at hx
      · cases hx; cases hd
      · split at hx
        · cases hx
        · split at hx
          · cases hx; simp only [payload, Option.some.injEq, Prod.mk.injEq] at hd; exact hd.1
          · cases hx; cases hd
    have := hsame m' hm' this
    subst this
    obtain ⟨h1, _, h2⟩ := log_unique hr hn ho ho hlog hl'
    have := congrArg List.length e
    rw [h1] at this
    simp at this
  have e2 : dataFor m.id (repliesTo sv c (exec1 sv (replay sv b l₁)
      (requestOf m.id m.ns m.method m.args)).1 l₂) = [] := by
    refine dataFor_nil ?_
    intro r hmem d' hd
    obtain ⟨a₁, inp, a₂, e, hx⟩ := mem_repliesTo hmem
    have hl' : s.server.log = (l₁ ++ (c, requestOf m.id m.ns m.method m.args) :: a₁) ++
        (c, inp) :: a₂ := by rw [hlog, e]; simp
    obtain ⟨m', hm', rfl⟩ := log_message hr ho (inp := inp) (by rw [hl']; simp)
    have : m'.id = m.id := by
      simp only [requestOf, exec1] at hx
      split at hx
      · cases hx; cases hd
      · split at hx
        · cases hx
        · split at hx
          · cases hx; simp only [payload, Option.some.injEq, Prod.mk.injEq] at hd; exact hd.1
          · cases hx; cases hd
    have := hsame m' hm' this
    subst this
    obtain ⟨h1, _, h2⟩ := log_unique hr hn ho ho hlog hl'
    have := congrArg List.length h1
    simp at this
  rw [e1, List.nil_append]
  simp only [repliesTo, if_true]
  rw [dataFor_append, e2, hex]
  simp [dataFor, payload]

theorem streams_starts {sv : Service σ C} {st : σ} {id c : Nat} {ns m : Str} {a : List Json}
    {items : Nat → Option (Except SerdeErr Json)}
    (h : Streams sv st (requestOf id ns m a) items) :
    starts sv st c (requestOf id ns m a) = some ⟨c, id, items⟩ := by
  obtain ⟨id', v, call, e, hd, hs, hrun⟩ := h
  unfold requestOf at e ⊢
  simp only [Except.ok.injEq, Request.exec.injEq] at e
  obtain ⟨rfl, rfl⟩ := e
  simp only [ServerSpec.starts, hd, hs, if_true, hrun]

theorem dataFor_firstItems (st : Started) (n : Nat) :
    dataFor st.id (firstItems st n) = (itemData st.items n).map (fun d => (st.id, d)) := by
  induction n with
  | zero => rfl
  | succ n ih =>
    rw [firstItems, dataFor_append, ih, itemData, List.map_append]
    congr 1
    cases h : st.items n with
    | none => rfl
    | some x => cases x <;> simp [itemResponse, dataFor, payload]

theorem streams_append (sv : Service σ C) (b : σ) (l₁ l₂ : List (Nat × Server.Input)) :
    streams sv b (l₁ ++ l₂) = streams sv b l₁ ++ streams sv (replay sv b l₁) l₂ := by
  induction l₁ generalizing b with
  | nil => rfl
  | cons p l ih => obtain ⟨c', i⟩ := p; simp only [List.cons_append, streams, replay, ih,
      List.append_assoc]

/-- The answers to a call that starts a stream: its first items; on a live connection all that have
been taken from the stream. -/
theorem answers_stream {sv : Service σ C} {b : σ} {s : State σ C} (hr : Reachable sv b s)
    {c i k : Nat} (ho : s.owner c = some (i, k)) (hn : (s.clients i).calls.length ≤ 2 ^ 53)
    {m : Client.Msg} (hm : m ∈ sentOn (s.clients i) k) {l₁ l₂ : List (Nat × Server.Input)}
    (hlog : s.server.log = l₁ ++ (c, requestOf m.id m.ns m.method m.args) :: l₂)
    {items : Nat → Option (Except SerdeErr Json)}
    (hstr : Streams sv (replay sv b l₁) (requestOf m.id m.ns m.method m.args) items) :
    (s.server.tasks (streams sv b l₁).length).src = items ∧
    ∃ n, n ≤ (s.server.tasks (streams sv b l₁).length).pos ∧
      ((s.server.conns c).alive = true → n = (s.server.tasks (streams sv b l₁).length).pos) ∧
      dataFor m.id ((s.server.conns c).produced.map (·.2)) =
        (itemData items n).map (fun d => (m.id, d)) := by
  have hsame : ∀ m' ∈ sentOn (s.clients i) k, m'.id = m.id → m' = m := fun m' hm' e =>
    (sent_unique (hr.client i) hn hm' hm e).2
  have hst := streams_starts (c := c) hstr
  have hidx : (streams sv b s.server.log)[(streams sv b l₁).length]? = some ⟨c, m.id, items⟩ := by
    rw [hlog, streams_append]
    simp only [streams, hst]
    simp
  have hlt : (streams sv b l₁).length < s.server.ntask := by
    rw [← (Server.inv_streams hr.server).1]
    exact (List.getElem?_eq_some_iff.1 hidx).1
  have htask := (Server.inv_streams hr.server).2 _ hlt
  rw [hidx] at htask
  simp only [Option.some.injEq, Started.mk.injEq] at htask
  obtain ⟨t1, t2, t3⟩ := htask
  refine ⟨t3.symm, ?_⟩
  have hsrc : ∀ p ∈ (s.server.conns c).produced, ∀ d', payload p.2 = some (m.id, d') →
      p.1 = some (streams sv b l₁).length := by
    intro p hp d' hd
    obtain ⟨src, r⟩ := p
    obtain ⟨m', hm', e, l₁', l₂', hl', hc⟩ := answer_source hr ho hp hd
    have := hsame m' hm' e
    subst this
    obtain ⟨rfl, _, rfl⟩ := log_unique hr hn ho ho hlog hl'
    rcases hc with ⟨_, hret⟩ | ⟨items, j, hj, _, _⟩
    · exfalso
      obtain ⟨id1, v1, c1, e1, d1, s1, _⟩ := hret
      obtain ⟨id2, v2, c2, e2, d2, s2, _⟩ := hstr
      rw [e1] at e2
      simp only [Except.ok.injEq, Request.exec.injEq] at e2
      obtain ⟨rfl, rfl⟩ := e2
      rw [d1] at d2; cases d2
      rw [s1] at s2; cases s2
    · exact hj
  obtain ⟨n, n1, n2, n3⟩ := (Server.inv_items hr.server (streams sv b l₁).length).2.2 hlt
  rw [← t1] at n2 n3
  refine ⟨n, n1, n2, ?_⟩
  rw [dataFor_src hsrc]
  unfold Server.Conn.itemsOf at n3
  have : ((s.server.conns c).produced.filter
      (fun p => p.1 == some (streams sv b l₁).length)).map (·.2) =
      firstItems ⟨c, m.id, items⟩ n := by rw [n3, ← t2, ← t3]
  rw [this]
  exact dataFor_firstItems ⟨c, m.id, items⟩ n

/-- Nothing has been answered before the request is executed. -/
theorem answers_none {sv : Service σ C} {b : σ} {s : State σ C} (hr : Reachable sv b s)
    {c i k : Nat} (ho : s.owner c = some (i, k)) (hn : (s.clients i).calls.length ≤ 2 ^ 53)
    {m : Client.Msg} (hm : m ∈ sentOn (s.clients i) k)
    (hlog : (c, requestOf m.id m.ns m.method m.args) ∉ s.server.log) :
    dataFor m.id ((s.server.conns c).produced.map (·.2)) = [] := by
  refine dataFor_nil ?_
  intro r hmem d hd
  obtain ⟨⟨src, r'⟩, hp, rfl⟩ := List.mem_map.1 hmem
  obtain ⟨m', hm', e, l₁, l₂, hl, _⟩ := answer_source hr ho hp hd
  have := (sent_unique (hr.client i) hn hm' hm e).2
  subst this
  exact hlog (by rw [hl]; simp)

end Verif.System
