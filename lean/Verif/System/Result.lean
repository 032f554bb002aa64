import Verif.System.Down

/-!
# The composed system: what becomes of a call (proof helpers)
-/

namespace Verif.System
open Verif Verif.ServerSpec Verif.SystemSpec

variable {σ C : Type}

/-- What one client does in a run of the system is a run of the client. -/
theorem run_client {sv : Service σ C} {s s' : State σ C} {ls : List Label} (i : Nat)
    (h : run sv s ls = some s') : ∃ cl, Client.run (s.clients i) cl = some (s'.clients i) := by
  induction ls generalizing s with
  | nil => simp only [run, Option.some.injEq] at h; subst h; exact ⟨[], rfl⟩
  | cons l ls ih =>
    simp only [run] at h
    cases h1 : step sv s l with
    | none => rw [h1] at h; cases h
    | some s1 =>
      rw [h1] at h
      obtain ⟨cl, hcl⟩ := ih h
      have hset : ∀ j l x (f : Nat → Nat), Client.step (s.clients j) l = some x →
          Client.run (({ s.setClient j x with down := f } : State σ C).clients i) cl =
            some (s'.clients i) →
          ∃ cl, Client.run (s.clients i) cl = some (s'.clients i) := by
        intro j l x f hx hr
        have hr' : Client.run ((s.setClient j x).clients i) cl = some (s'.clients i) := hr
        by_cases e : i = j
        · subst e
          rw [setClient_self] at hr'
          exact ⟨l :: cl, by simp only [Client.run, hx]; exact hr'⟩
        · rw [setClient_ne _ _ e] at hr'; exact ⟨cl, hr'⟩
      cases step_Move h1 with
      | client j l x hx hl => exact hset j l x _ hx hcl
      | server => exact ⟨cl, hcl⟩
      | foreign => exact ⟨cl, hcl⟩
      | accept => exact ⟨cl, hcl⟩
      | deliver => exact ⟨cl, hcl⟩
      | respond c j k r x ho hm hx => exact hset j _ x _ hx hcl

theorem run_calls {x y : Client.State} {cl : List Client.Label} (h : Client.run x cl = some y) :
    x.calls <+: y.calls := by
  induction cl generalizing x with
  | nil => simp only [Client.run, Option.some.injEq] at h; subst h; exact List.prefix_refl _
  | cons l ls ih =>
    simp only [Client.run] at h
    cases h1 : Client.step x l with
    | none => rw [h1] at h; cases h
    | some s1 => rw [h1] at h; exact (client_calls h1).trans (ih h)

/-! ## No request is executed twice -/

/-- Does connection `c` belong to client `i`? -/
def ofClient (s : State σ C) (i c : Nat) : Bool := (s.owner c).map (·.1) == some i

theorem ofClient_iff {s : State σ C} {i c : Nat} :
    ofClient s i c = true ↔ ∃ k, s.owner c = some (i, k) := by
  unfold ofClient
  cases s.owner c with
  | none => simp
  | some ik => obtain ⟨i', k⟩ := ik; simp

/-- Requests accepted from the connections of client `i`. -/
def acceptedFrom (s : State σ C) (i : Nat) : List Server.Input :=
  (s.server.accepted.filter (fun p => ofClient s i p.1)).map (·.2)

theorem requestOf_id {m m' : Client.Msg}
    (h : requestOf m.id m.ns m.method m.args = requestOf m'.id m'.ns m'.method m'.args) :
    m.id = m'.id := by
  unfold requestOf at h
  simp only [Except.ok.injEq, Request.exec.injEq] at h
  exact h.1

theorem accepted_message {sv : Service σ C} {b : σ} {s : State σ C} (hr : Reachable sv b s)
    {c i k : Nat} (ho : s.owner c = some (i, k)) {inp : Server.Input}
    (h1 : (c, inp) ∈ s.server.accepted) :
    ∃ m ∈ (sentOn (s.clients i) k).take (s.up c), inp = requestOf m.id m.ns m.method m.args := by
  have h2 : inp ∈ acceptedOn s.server c :=
    List.mem_map.2 ⟨_, List.mem_filter.2 ⟨h1, by simp⟩, rfl⟩
  obtain ⟨m, hm, e⟩ := List.mem_map.1 ((inv_up hr c i k ho).acc.subset h2)
  have hm' := List.mem_of_mem_take hm
  refine ⟨m, hm, ?_⟩
  rw [← e]
  exact msgInput_eq (call_id_le (hr.client i) (sent_calls (hr.client i) (sentOn_sent.1 hm')))

theorem sentOn_nodup {x : Client.State} (hr : Client.Reachable x)
    (hn : x.calls.length ≤ 2 ^ 53) (k : Nat) : ((sentOn x k).map (·.id)).Nodup := by
  have := sent_nodup hr hn
  unfold sentOn
  rw [List.map_map]
  exact (List.filter_sublist.map _).nodup this

theorem take_not_later {l : List Client.Msg} (h : (l.map (·.id)).Nodup) {n : Nat} {m m' : Client.Msg}
    (h1 : m ∈ l.take n) (h2 : l[n]? = some m') : m.id ≠ m'.id := by
  intro e
  obtain ⟨j, hj, hj'⟩ := List.mem_take_iff_getElem.1 h1
  obtain ⟨hn, hn'⟩ := List.getElem?_eq_some_iff.1 h2
  have hjl : j < l.length := by omega
  have := List.pairwise_iff_getElem.1 h j n (by simpa using hjl) (by simpa using hn) (by omega)
  simp only [List.getElem_map] at this
  rw [hj', hn'] at this
  exact this e

theorem inv_once {sv : Service σ C} {b : σ} {s : State σ C} (h : Reachable sv b s) :
    ∀ i, (s.clients i).calls.length ≤ 2 ^ 53 → (acceptedFrom s i).Nodup := by
  refine h.induct (P := fun s => ∀ i, (s.clients i).calls.length ≤ 2 ^ 53 →
    (acceptedFrom s i).Nodup) (by intro i _; simp [acceptedFrom, init, Server.init]) ?_
  clear h s
  intro s l s' hr ih hst i
  -- a server step that accepts nothing from this client
  have hserver : ∀ l x (o : Nat → Option (Nat × Nat)) (u : Nat → Nat),
      Server.step sv s.server l = some x → (∀ c, c < s.server.nconn → o c = s.owner c) →
      (∀ c f, l = .frame c f → ∀ k, s.owner c ≠ some (i, k)) →
      acceptedFrom { s with server := x, owner := o, up := u } i = acceptedFrom s i := by
    intro l x o u h ho hf
    have hacc := Server.step_arrivals h
    have hold : ∀ (acc : List (Nat × Server.Input)), (∀ p ∈ acc, p.1 < s.server.nconn) →
        (acc.filter (fun p => ofClient { s with server := x, owner := o, up := u } i p.1)) =
        acc.filter (fun p => ofClient s i p.1) := by
      intro acc hacc
      refine List.filter_congr ?_
      intro p hp
      unfold ofClient
      simp only [ho p.1 (hacc p hp)]
    have hlt := (Server.inv_fresh hr.server).1
    unfold acceptedFrom
    by_cases ha : LoopAlive s.server
    · show List.map _ (x.accepted.filter _) = _
      rw [hacc.1 ha, List.filter_append, hold _ hlt]
      have : (arrivals [l]).filter
          (fun p => ofClient { s with server := x, owner := o, up := u } i p.1) = [] := by
        cases l with
        | frame c f =>
          cases f with
          | text doc =>
            simp only [arrivals, List.filter_cons, List.filter_nil]
            rw [if_neg]
            intro hc
            obtain ⟨k, hk⟩ := ofClient_iff.1 hc
            have hk' : o c = some (i, k) := hk
            have hlt : c < s.server.nconn := by
              apply Classical.byContradiction
              intro hn
              have : (s.server.conns c).alive = false := by
                rw [(Server.inv_fresh hr.server).2.1 c (by omega)]; rfl
              simp [Server.step, this] at h
            rw [ho c hlt] at hk'
            exact hf c _ rfl k hk'
          | other => simp [arrivals]
        | _ => simp [arrivals]
      rw [this, List.append_nil]
    · show List.map _ (x.accepted.filter _) = _
      rw [hacc.2 ha, hold _ hlt]
  -- a client step
  have hclient : ∀ j y (f : Nat → Nat), (s.clients j).calls <+: y.calls →
      ((({ s.setClient j y with down := f } : State σ C)).clients i).calls.length ≤ 2 ^ 53 →
      (acceptedFrom s i).Nodup := by
    intro j y f hp hn
    refine ih i ?_
    have hn' : ((s.setClient j y).clients i).calls.length ≤ 2 ^ 53 := hn
    by_cases e : i = j
    · subst e; rw [setClient_self] at hn'; exact Nat.le_trans hp.length_le hn'
    · rwa [setClient_ne _ _ e] at hn'
  cases step_Move hst with
  | client j l x h hl => intro hn; exact hclient j x s.down (client_calls h) hn
  | server l x h hc hf =>
    intro hn
    have := hserver l x s.owner s.up h (fun _ _ => rfl) (by
      intro c f e k ho; rw [hf c f e] at ho; cases ho)
    show (acceptedFrom { s with server := x, owner := s.owner, up := s.up } i).Nodup
    rw [this]; exact ih i hn
  | foreign x h =>
    intro hn
    have := hserver _ x s.owner s.up h (fun _ _ => rfl) (by intro c f e; cases e)
    show (acceptedFrom { s with server := x, owner := s.owner, up := s.up } i).Nodup
    rw [this]; exact ih i hn
  | accept i' k' x h hk hw hu =>
    intro hn
    have := hserver _ x (fun c => if c = s.server.nconn then some (i', k') else s.owner c) s.up h
      (fun c hc => by show (if _ then _ else _) = _; rw [if_neg (by omega)])
      (by intro c f e; cases e)
    show (acceptedFrom { s with server := x, owner := _, up := s.up } i).Nodup
    rw [this]; exact ih i hn
  | deliver c i' k m x ho hm h =>
    intro hn
    have hn : (s.clients i).calls.length ≤ 2 ^ 53 := hn
    by_cases e : i = i'
    · subst e
      have hacc := Server.step_arrivals h
      by_cases ha : LoopAlive s.server
      · have e : acceptedFrom { s with server := x, up := fun c' => if c' = c then s.up c + 1 else s.up c' } i =
            acceptedFrom s i ++ [requestOf m.id m.ns m.method m.args] := by
          unfold acceptedFrom
          show List.map _ (x.accepted.filter _) = _
          rw [hacc.1 ha, List.filter_append, List.map_append]
          congr 1
          have hc : ofClient { s with server := x, up := fun c' => if c' = c then s.up c + 1 else s.up c' } i c
              = true := ofClient_iff.2 ⟨k, ho⟩
          have hmem : m ∈ sentOn (s.clients i) k := List.mem_of_getElem? hm
          have := msgInput_eq (call_id_le (hr.client i)
            (sent_calls (hr.client i) (sentOn_sent.1 hmem)))
          unfold msgInput at this
          simp only [frameOf, arrivals, List.filter_cons, hc, if_true, List.filter_nil,
            List.map_cons, List.map_nil, this]
        rw [e, List.nodup_append]
        refine ⟨ih i hn, by simp, ?_⟩
        intro a ha' b' hb e'
        rw [List.mem_singleton] at hb
        subst hb
        subst e'
        obtain ⟨⟨c', inp⟩, hp, hp'⟩ := List.mem_map.1 ha'
        simp only at hp'
        subst hp'
        obtain ⟨h1, h2⟩ := List.mem_filter.1 hp
        obtain ⟨k', ho'⟩ := ofClient_iff.1 h2
        obtain ⟨m', hm', e'⟩ := accepted_message hr ho' h1
        have hid := requestOf_id e'
        obtain ⟨hk, hmm⟩ := sent_unique (hr.client i) hn (List.mem_of_getElem? hm)
          (List.mem_of_mem_take hm') hid
        subst hk
        have := (inv_own hr).inj _ _ _ ho ho'
        subst this
        exact take_not_later (sentOn_nodup (hr.client i) hn k) hm' hm hid.symm
      · have := hacc.2 ha
        have e : acceptedFrom { s with server := x, up := fun c' => if c' = c then s.up c + 1 else s.up c' } i =
            acceptedFrom s i := by
          unfold acceptedFrom
          show List.map _ (x.accepted.filter _) = _
          rw [this]; rfl
        rw [e]; exact ih i hn
    · have := hserver _ x s.owner (fun c' => if c' = c then s.up c + 1 else s.up c') h
        (fun _ _ => rfl) (by
          intro c' f e' k' ho'
          cases e'
          rw [ho] at ho'; cases ho'; exact e rfl)
      show (acceptedFrom { s with server := x, owner := s.owner, up := _ } i).Nodup
      rw [this]; exact ih i hn
  | respond c j k r x ho hm h =>
    intro hn
    exact hclient j x _ (by rw [(client_message h).2.2]; exact List.prefix_refl _) hn

/-- The place of a request of a client in the log is unique. -/
theorem log_unique {sv : Service σ C} {b : σ} {s : State σ C} (hr : Reachable sv b s)
    {i : Nat} (hn : (s.clients i).calls.length ≤ 2 ^ 53) {c c' k k' : Nat}
    (ho : s.owner c = some (i, k)) (ho' : s.owner c' = some (i, k'))
    {inp : Server.Input} {l₁ l₂ l₁' l₂' : List (Nat × Server.Input)}
    (h : s.server.log = l₁ ++ (c, inp) :: l₂) (h' : s.server.log = l₁' ++ (c', inp) :: l₂') :
    l₁ = l₁' ∧ c = c' ∧ l₂ = l₂' := by
  have hnd : ((s.server.log.filter (fun p => ofClient s i p.1)).map (·.2)).Nodup := by
    have hp := (Server.inv_queue hr.server).2
    exact ((hp.sublist.filter _).map _).nodup (inv_once hr i hn)
  have hc : ofClient s i c = true := ofClient_iff.2 ⟨k, ho⟩
  have hc' : ofClient s i c' = true := ofClient_iff.2 ⟨k', ho'⟩
  have key : ∀ (a₁ a₂ a₁' a₂' : List (Nat × Server.Input)) (x : Nat × Server.Input)
      (x' : Nat × Server.Input), x.2 = x'.2 → ofClient s i x.1 = true → ofClient s i x'.1 = true →
      (((a₁ ++ x :: a₂).filter (fun p => ofClient s i p.1)).map (·.2)).Nodup →
      a₁ ++ x :: a₂ = a₁' ++ x' :: a₂' → a₁ = a₁' ∧ x = x' ∧ a₂ = a₂' := by
    intro a₁
    induction a₁ with
    | nil =>
      intro a₂ a₁' a₂' x x' hx hc hc' hnd e
      cases a₁' with
      | nil => simp only [List.nil_append, List.cons.injEq] at e; exact ⟨rfl, e.1, e.2⟩
      | cons y t =>
        simp only [List.nil_append, List.cons_append, List.cons.injEq] at e
        obtain ⟨rfl, rfl⟩ := e
        exfalso
        simp only [List.nil_append, List.filter_cons, hc, hc', if_true, List.map_cons,
          List.filter_append, List.map_append, List.nodup_cons] at hnd
        exact hnd.1 (by rw [hx]; simp)
    | cons y t ih =>
      intro a₂ a₁' a₂' x x' hx hc hc' hnd e
      cases a₁' with
      | nil =>
        simp only [List.nil_append, List.cons_append, List.cons.injEq] at e
        obtain ⟨rfl, rfl⟩ := e
        exfalso
        simp only [List.cons_append, List.filter_cons, hc, hc', if_true, List.map_cons,
          List.filter_append, List.map_append, List.nodup_cons] at hnd
        exact hnd.1 (by rw [hx]; simp)
      | cons y' t' =>
        simp only [List.cons_append, List.cons.injEq] at e
        obtain ⟨rfl, e⟩ := e
        have hnd' : (((t ++ x :: a₂).filter (fun p => ofClient s i p.1)).map (·.2)).Nodup := by
          refine List.Sublist.nodup ?_ hnd
          exact (List.Sublist.filter _ (by simp)).map _
        obtain ⟨e1, e2, e3⟩ := ih a₂ t' a₂' x x' hx hc hc' hnd' e
        exact ⟨by rw [e1], e2, e3⟩
  obtain ⟨e1, e2, e3⟩ := key l₁ l₂ l₁' l₂' (c, inp) (c', inp) rfl hc hc' (by rw [← h]; exact hnd)
    (by rw [← h, ← h'])
  exact ⟨e1, by cases e2; rfl, e3⟩

end Verif.System
