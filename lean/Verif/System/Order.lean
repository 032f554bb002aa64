import Verif.System.Calm
import Verif.System.Fair

/-!
# The order in which calls are executed (proof helpers)
-/

namespace Verif.System
open Verif Verif.ServerSpec Verif.SystemSpec

variable {σ C : Type}

theorem step_owner {sv : Service σ C} {s s' : State σ C} {l : Label} (hst : step sv s l = some s') :
    s.server.nconn ≤ s'.server.nconn ∧ ∀ c, c < s.server.nconn → s'.owner c = s.owner c := by
  cases step_Move hst with
  | client => exact ⟨Nat.le_refl _, fun _ _ => rfl⟩
  | server l x h hc =>
    exact ⟨Nat.le_of_eq ((server_nconn h).2 hc).symm, fun _ _ => rfl⟩
  | foreign x h =>
    have := (server_nconn h).1 rfl
    exact ⟨by show _ ≤ x.nconn; omega, fun _ _ => rfl⟩
  | accept i k x h =>
    have := (server_nconn h).1 rfl
    refine ⟨by show _ ≤ x.nconn; omega, fun c hc => ?_⟩
    show (if c = s.server.nconn then some (i, k) else s.owner c) = _
    rw [if_neg (by omega)]
  | deliver c i k m x _ _ h =>
    exact ⟨Nat.le_of_eq ((server_nconn h).2 (by simp)).symm, fun _ _ => rfl⟩
  | respond => exact ⟨Nat.le_refl _, fun _ _ => rfl⟩

theorem step_log {sv : Service σ C} {s s' : State σ C} {l : Label} (hst : step sv s l = some s') :
    s.server.log <+: s'.server.log := by
  cases step_Move hst with
  | client => exact List.prefix_refl _
  | server l x h => exact server_log h
  | foreign x h => exact server_log h
  | accept i k x h => exact server_log h
  | deliver c i k m x _ _ h => exact server_log h
  | respond => exact List.prefix_refl _

theorem run_log {sv : Service σ C} {ls : List Label} : ∀ {s s' : State σ C}, run sv s ls = some s' →
    s.server.log <+: s'.server.log ∧ s.server.nconn ≤ s'.server.nconn ∧
      ∀ c, c < s.server.nconn → s'.owner c = s.owner c := by
  induction ls with
  | nil => intro s s' h; cases h; exact ⟨List.prefix_refl _, Nat.le_refl _, fun _ _ => rfl⟩
  | cons l ls ih =>
    intro s s' h
    simp only [run] at h
    cases h1 : step sv s l with
    | none => rw [h1] at h; cases h
    | some s1 =>
      rw [h1] at h
      obtain ⟨a1, a2, a3⟩ := ih h
      obtain ⟨b1, b2⟩ := step_owner h1
      exact ⟨(step_log h1).trans a1, Nat.le_trans b1 a2, fun c hc => (a3 c (by omega)).trans (b2 c hc)⟩

/-- The connections of executed requests exist. -/
theorem log_nconn {sv : Service σ C} {b : σ} {s : State σ C} (hr : Reachable sv b s) {p : Nat × Server.Input}
    (hp : p ∈ s.server.log) : p.1 < s.server.nconn := by
  apply Classical.byContradiction
  intro h
  have h0 := acceptedOn_fresh hr.server (c := p.1) (by omega)
  have : p.2 ∈ acceptedOn s.server p.1 :=
    List.mem_map.2 ⟨p, List.mem_filter.2 ⟨(Server.inv_queue hr.server).2.subset hp, by simp⟩, rfl⟩
  rw [h0] at this
  cases this

/-- A client calls a function: `request` or `subscribe`. -/
theorem call_step {sv : Service σ C} {s s' : State σ C} {i : Nat} {l : Client.Label} {ns m : Str} {a : List Json}
    (hl : l = .request ns m a ∨ l = .subscribe ns m a) (h : step sv s (.client i l) = some s') :
    (s'.clients i).reqId = Client.jsInc (s.clients i).reqId ∧
    (s'.clients i).calls = (s.clients i).calls ++ [lastMessage s' i ns m a] ∧ s'.server = s.server ∧ s'.owner = s.owner := by
  obtain ⟨h1, h2⟩ := client_step h
  have e1 : s'.server = s.server := by rw [h2]; rfl
  have e2 : s'.owner = s.owner := by rw [h2]; rfl
  have key : (s'.clients i).reqId = Client.jsInc (s.clients i).reqId ∧
      (s'.clients i).calls = (s.clients i).calls ++ [⟨Client.jsInc (s.clients i).reqId, ns, m, a⟩] := by
    rcases hl with rfl | rfl <;> simp only [Client.step, Option.some.injEq] at h1 <;> rw [← h1]
    · unfold Client.State.request
      simp [Client.State.addSub, Client.State.issue, Client.State.newMsg]
    · unfold Client.State.subscribe
      simp [Client.State.issue, Client.State.newMsg]
  refine ⟨key.1, ?_, e1, e2⟩
  rw [key.2]
  simp [lastMessage, key.1]

/-- A new call has not been executed. -/
theorem call_new {sv : Service σ C} {b : σ} {s s' : State σ C} {i c k : Nat} {l : Client.Label} {ns m : Str} {a : List Json}
    (hr : Reachable sv b s) (hl : l = .request ns m a ∨ l = .subscribe ns m a) (h : step sv s (.client i l) = some s')
    (hn : (s'.clients i).calls.length ≤ 2 ^ 53) (ho : s.owner c = some (i, k)) :
    (c, lastRequest s' i ns m a) ∉ s.server.log := by
  intro hm
  obtain ⟨e1, e2, _, _⟩ := call_step hl h
  obtain ⟨msg, hmsg, e⟩ := log_message hr ho hm
  have hc := sent_calls (hr.client i) (sentOn_sent.1 hmsg)
  rw [e2, List.length_append] at hn
  simp only [List.length_cons, List.length_nil] at hn
  refine new_id (hr.client i) (by omega) msg hc ?_
  simp only [lastRequest, requestOf, Except.ok.injEq, Request.exec.injEq] at e
  rw [← e.1, e1]

/-- What is in a list and not in an initial part of it comes after that part. -/
theorem after_prefix {α : Type} {l l' before after : List α} {x : α} (h : l <+: l') (e : l' = before ++ x :: after)
    (hx : x ∉ l) : l <+: before := by
  obtain ⟨r, rfl⟩ := h
  by_cases hle : l.length ≤ before.length
  · exact List.prefix_of_prefix_length_le ⟨r, e⟩ (List.prefix_append _ _) hle
  · exfalso
    apply hx
    have : before ++ [x] <+: l := by
      refine List.prefix_of_prefix_length_le (l₃ := l ++ r) ⟨after, by rw [e]; simp⟩ (List.prefix_append _ _) ?_
      simp; omega
    exact this.subset (by simp)

/-- A step of a history. -/
theorem run_at {sv : Service σ C} {b : σ} {ls : List Label} {s : State σ C} (h : run sv (init b) ls = some s) {p : Nat} {l : Label}
    (hp : ls[p]? = some l) : ∃ s₁ s₂, run sv (init b) (ls.take p) = some s₁ ∧ step sv s₁ l = some s₂ ∧
      run sv (init b) (ls.take (p + 1)) = some s₂ ∧
      ∀ n, p < n → ∀ s', run sv (init b) (ls.take n) = some s' → run sv s₂ ((ls.take n).drop (p + 1)) = some s' := by
  obtain ⟨hlt, hl⟩ := List.getElem?_eq_some_iff.1 hp
  have e : ls = ls.take p ++ l :: ls.drop (p + 1) := by
    rw [← hl, List.getElem_cons_drop, List.take_append_drop]
  rw [e, run_append] at h
  cases h1 : run sv (init b) (ls.take p) with
  | none => rw [h1] at h; cases h
  | some s₁ =>
    rw [h1] at h
    simp only [Option.bind_some, run] at h
    cases h2 : step sv s₁ l with
    | none => rw [h2] at h; cases h
    | some s₂ =>
      have h3 : run sv (init b) (ls.take (p + 1)) = some s₂ := by
        rw [List.take_add_one, hp, run_append, h1]; simp [run, h2]
      refine ⟨s₁, s₂, rfl, h2, h3, ?_⟩
      intro n hn s' hs'
      have e2 : ls.take n = ls.take (p + 1) ++ (ls.take n).drop (p + 1) := by
        conv => lhs; rw [← List.take_append_drop (p + 1) (ls.take n)]
        rw [List.take_take, Nat.min_eq_left (by omega)]
      rw [e2, run_append, h3] at hs'
      exact hs'

theorem run_prefix {sv : Service σ C} {b : σ} {ls : List Label} {s : State σ C} (h : run sv (init b) ls = some s) (n : Nat) :
    ∃ s', run sv (init b) (ls.take n) = some s' := by
  rw [← List.take_append_drop n ls, run_append] at h
  cases h1 : run sv (init b) (ls.take n) with
  | none => rw [h1] at h; cases h
  | some s' => exact ⟨s', rfl⟩

theorem run_between {sv : Service σ C} {b : σ} {ls : List Label} {n n' : Nat} {s s' : State σ C} (hle : n ≤ n')
    (h : run sv (init b) (ls.take n) = some s) (h' : run sv (init b) (ls.take n') = some s') :
    ∃ ls', run sv s ls' = some s' := by
  have e2 : ls.take n' = ls.take n ++ (ls.take n').drop n := by
    conv => lhs; rw [← List.take_append_drop n (ls.take n')]
    rw [List.take_take, Nat.min_eq_left hle]
  rw [e2, run_append, h] at h'
  exact ⟨_, h'⟩

/-- An entry with distinguishing marks has one place. -/
theorem place_unique {α β : Type} {l : List α} {P : α → Bool} {f : α → β} (hnd : ((l.filter P).map f).Nodup) {x y : Nat} {e e' : α}
    (hx : l[x]? = some e) (hy : l[y]? = some e') (he : P e = true) (he' : P e' = true) (hf : f e = f e') : x = y := by
  have key : ∀ (x y : Nat) (e e' : α), x < y → l[x]? = some e → l[y]? = some e' → P e = true → P e' = true → f e = f e' → False := by
    intro x y e e' hlt hx hy he he' hf
    have hm1 : e ∈ l.take (x + 1) := by
      rw [List.take_add_one, hx]; simp
    have hm2 : e' ∈ l.drop (x + 1) := by
      have : (l.drop (x + 1))[y - (x + 1)]? = some e' := by
        rw [List.getElem?_drop, ← hy]; congr 1; omega
      exact List.mem_of_getElem? this
    rw [← List.take_append_drop (x + 1) l, List.filter_append, List.map_append, List.nodup_append] at hnd
    exact hnd.2.2 _ (List.mem_map.2 ⟨_, List.mem_filter.2 ⟨hm1, he⟩, rfl⟩) _ (List.mem_map.2 ⟨_, List.mem_filter.2 ⟨hm2, he'⟩, rfl⟩) hf
  rcases Nat.lt_trichotomy x y with h | h | h
  · exact (key x y e e' h hx hy he he' hf).elim
  · exact h
  · exact (key y x e' e h hy hx he' he hf.symm).elim

end Verif.System
