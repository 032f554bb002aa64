import Verif.System.Lemmas

/-!
# The composed system: invariants (proof helpers)
-/

namespace Verif.System
open Verif Verif.ServerSpec

variable {σ C : Type}

/-- Who owns which connection. -/
structure InvOwn (s : State σ C) : Prop where
  lt : ∀ c ik, s.owner c = some ik → c < s.server.nconn
  inj : ∀ c c' ik, s.owner c = some ik → s.owner c' = some ik → c = c'
  down0 : ∀ c, s.server.nconn ≤ c → s.down c = 0
  up0 : ∀ c, s.server.nconn ≤ c → s.up c = 0

theorem inv_own {sv : Service σ C} {b : σ} {s : State σ C} (h : Reachable sv b s) : InvOwn s := by
  refine h.induct (P := InvOwn) ⟨?_, ?_, ?_, ?_⟩ ?_
  · intro c ik h; simp [init] at h
  · intro c c' ik h; simp [init] at h
  · intro c _; rfl
  · intro c _; rfl
  intro s l s' hr ih hst
  cases step_Move hst with
  | client i l x h hl => exact ⟨ih.lt, ih.inj, ih.down0, ih.up0⟩
  | server l x h hc hf =>
    have hn := (server_nconn h).2 hc
    exact ⟨fun c ik ho => by show c < x.nconn; rw [hn]; exact ih.lt c ik ho, ih.inj,
      fun c hc => ih.down0 c (hn ▸ hc), fun c hc => ih.up0 c (hn ▸ hc)⟩
  | foreign x h =>
    have hn := (server_nconn h).1 rfl
    refine ⟨fun c ik ho => ?_, ih.inj, fun c hc => ih.down0 c ?_, fun c hc => ih.up0 c ?_⟩
    · have := ih.lt c ik ho; show c < x.nconn; omega
    · have : x.nconn ≤ c := hc; omega
    · have : x.nconn ≤ c := hc; omega
  | accept i k x h hk hw hu =>
    have hn := (server_nconn h).1 rfl
    refine ⟨fun c ik ho => ?_, fun c c' ik ho ho' => ?_, fun c hc => ih.down0 c ?_,
      fun c hc => ih.up0 c ?_⟩
    · show c < x.nconn
      simp only at ho
      split at ho
      · omega
      · have := ih.lt c ik ho; omega
    · simp only at ho ho'
      split at ho <;> split at ho'
      · rename_i e e'; rw [e, e']
      · cases ho; exact absurd ho' (hu c' (ih.lt _ _ ho'))
      · cases ho'; exact absurd ho (hu c (ih.lt _ _ ho))
      · exact ih.inj c c' ik ho ho'
    · have : x.nconn ≤ c := hc; omega
    · have : x.nconn ≤ c := hc; omega
  | deliver c i k m x ho hm h =>
    have hn := (server_nconn h).2 (by simp)
    refine ⟨fun c ik ho => by show c < x.nconn; rw [hn]; exact ih.lt c ik ho, ih.inj,
      fun c hc => ih.down0 c (hn ▸ hc), fun c' hc => ?_⟩
    have h1 : s.server.nconn ≤ c' := hn ▸ hc
    have := ih.lt _ _ ho
    simp only
    rw [if_neg (by omega)]; exact ih.up0 c' h1
  | respond c i k r x ho hm h =>
    refine ⟨ih.lt, ih.inj, fun c' hc => ?_, ih.up0⟩
    have h1 : s.server.nconn ≤ c' := hc
    have := ih.lt _ _ ho
    simp only
    rw [if_neg (by omega)]; exact ih.down0 c' h1

/-- The requests accepted from connection `c`. -/
def acceptedOn (s : Server.State σ C) (c : Nat) : List Server.Input :=
  (s.accepted.filter (fun p => p.1 == c)).map (·.2)

/-- What the server makes of a message. -/
def msgInput (m : Client.Msg) : Server.Input :=
  Server.frameInput (some (WireSpec.clientMessage m.id m.ns m.method m.args))

theorem dead_stays {sv : Service σ C} {x y : Server.State σ C} {l : Server.Label}
    (h : Server.step sv x l = some y) (ha : LoopAlive y) : LoopAlive x := by
  apply Classical.byContradiction
  intro hd
  exact absurd ha (Server.step_dead hd h).1

theorem server_acceptedOn {sv : Service σ C} {x y : Server.State σ C} {l : Server.Label}
    (h : Server.step sv x l = some y) (c : Nat) :
    (LoopAlive x → acceptedOn y c = acceptedOn x c ++
      match l with
      | .frame c' (.text doc) => if c' = c then [Server.frameInput doc] else []
      | _ => []) ∧
    (¬ LoopAlive x → acceptedOn y c = acceptedOn x c) := by
  have hs := Server.step_arrivals h
  refine ⟨fun ha => ?_, fun hd => by unfold acceptedOn; rw [hs.2 hd]⟩
  unfold acceptedOn
  rw [hs.1 ha, List.filter_append, List.map_append]
  congr 1
  cases l with
  | frame c' f =>
    cases f with
    | text doc =>
      by_cases e : c' = c
      · simp [arrivals, e]
      · simp [arrivals, e]
    | other => simp [arrivals]
  | _ => simp [arrivals]

/-- The server has accepted the delivered messages of a connection, in order; if its task has ended,
an initial part of them. -/
structure InvUp (s : State σ C) (c i k : Nat) : Prop where
  le : s.up c ≤ (sentOn (s.clients i) k).length
  acc : acceptedOn s.server c <+: ((sentOn (s.clients i) k).take (s.up c)).map msgInput
  all : LoopAlive s.server →
    acceptedOn s.server c = ((sentOn (s.clients i) k).take (s.up c)).map msgInput

theorem acceptedOn_fresh {sv : Service σ C} {b : σ} {x : Server.State σ C}
    (h : Server.Reachable sv b x) {c : Nat} (hc : x.nconn ≤ c) : acceptedOn x c = [] := by
  unfold acceptedOn
  rw [List.map_eq_nil_iff, List.filter_eq_nil_iff]
  intro p hp
  have := (Server.inv_fresh h).1 p hp
  simp only [beq_iff_eq]
  omega

theorem inv_up {sv : Service σ C} {b : σ} {s : State σ C} (h : Reachable sv b s) :
    ∀ c i k, s.owner c = some (i, k) → InvUp s c i k := by
  refine h.induct (P := fun s => ∀ c i k, s.owner c = some (i, k) → InvUp s c i k) ?_ ?_
  · intro c i k h; simp [init] at h
  intro s l s' hr ih hst c i k ho
  -- the client has sent more
  have hcl : ∀ j y, s.owner c = some (i, k) → (s.clients j).sent <+: y.sent →
      sentOn (s.clients i) k <+: sentOn ((s.setClient j y).clients i) k := by
    intro j y _ hp
    by_cases e : i = j
    · subst e; rw [setClient_self]; exact sentOn_prefix hp k
    · rw [setClient_ne _ _ e]; exact List.prefix_refl _
  have hclient : ∀ j y (f : Nat → Nat), s.owner c = some (i, k) → (s.clients j).sent <+: y.sent →
      InvUp { s.setClient j y with down := f } c i k := by
    intro j y f ho hp
    have hpre := hcl j y ho hp
    have hI := ih c i k ho
    refine ⟨Nat.le_trans hI.le hpre.length_le, ?_, fun ha => ?_⟩
    · show acceptedOn s.server c <+: ((sentOn ((s.setClient j y).clients i) k).take (s.up c)).map _
      rw [prefix_take hpre hI.le]; exact hI.acc
    · show acceptedOn s.server c = ((sentOn ((s.setClient j y).clients i) k).take (s.up c)).map _
      rw [prefix_take hpre hI.le]; exact hI.all ha
  -- the server has done something that is no frame of this connection
  have hserver : ∀ l y, Server.step sv s.server l = some y → s.owner c = some (i, k) →
      (∀ f, l ≠ .frame c f) → acceptedOn y c = acceptedOn s.server c ∧
      (LoopAlive y → LoopAlive s.server) := by
    intro l y h ho hf
    have := server_acceptedOn h c
    refine ⟨?_, dead_stays h⟩
    by_cases ha : LoopAlive s.server
    · rw [this.1 ha]
      cases l with
      | frame c' f =>
        cases f with
        | text doc => simp [show c' ≠ c from fun e => hf (.text doc) (e ▸ rfl)]
        | other => simp
      | _ => simp
    · exact this.2 ha
  cases step_Move hst with
  | client j l x h hl => exact hclient j x s.down ho (client_sent (hr.client j) h)
  | server l x h hc hf =>
    have hI := ih c i k ho
    have := hserver l x h ho (by rintro f rfl; have := hf c f rfl; rw [this] at ho; cases ho)
    exact ⟨hI.le, by show acceptedOn x c <+: _; rw [this.1]; exact hI.acc,
      fun ha => by show acceptedOn x c = _; rw [this.1]; exact hI.all (this.2 ha)⟩
  | foreign x h =>
    have hI := ih c i k ho
    have := hserver _ x h ho (by simp)
    exact ⟨hI.le, by show acceptedOn x c <+: _; rw [this.1]; exact hI.acc,
      fun ha => by show acceptedOn x c = _; rw [this.1]; exact hI.all (this.2 ha)⟩
  | accept i' k' x h hk hw hu =>
    simp only at ho
    split at ho
    · rename_i e
      have hup : s.up c = 0 := (inv_own hr).up0 c (by omega)
      have hacc : acceptedOn x c = [] := by
        have := server_acceptedOn h c
        have h0 := acceptedOn_fresh hr.server (c := c) (by omega)
        by_cases ha : LoopAlive s.server
        · rw [this.1 ha, h0]; rfl
        · rw [this.2 ha, h0]
      refine ⟨?_, ?_, fun _ => ?_⟩
      · show s.up c ≤ _; omega
      · show acceptedOn x c <+: List.map msgInput (List.take (s.up c) _)
        rw [hacc, hup]; simp
      · show acceptedOn x c = List.map msgInput (List.take (s.up c) _)
        rw [hacc, hup]; simp
    · have hI := ih c i k ho
      have := hserver _ x h ho (by simp)
      exact ⟨hI.le, by show acceptedOn x c <+: _; rw [this.1]; exact hI.acc,
        fun ha => by show acceptedOn x c = _; rw [this.1]; exact hI.all (this.2 ha)⟩
  | deliver c' i' k' m x ho' hm h =>
    have hI := ih c i k ho
    by_cases e : c = c'
    · subst e
      have : s.owner c = some (i, k) := ho
      rw [this] at ho'; cases ho'
      have hlt : s.up c < (sentOn (s.clients i) k).length := (List.getElem?_eq_some_iff.1 hm).1
      have htake : (sentOn (s.clients i) k).take (s.up c + 1) =
          (sentOn (s.clients i) k).take (s.up c) ++ [m] := by
        rw [List.take_add_one, hm]; rfl
      have hacc := server_acceptedOn h c
      simp only [frameOf, if_true] at hacc
      refine ⟨?_, ?_, fun ha => ?_⟩
      · show (if c = c then s.up c + 1 else s.up c) ≤ _
        simp only [if_true]; exact hlt
      · show acceptedOn x c <+: ((sentOn (s.clients i) k).take
          (if c = c then s.up c + 1 else s.up c)).map msgInput
        simp only [if_true, htake, List.map_append]
        by_cases ha : LoopAlive s.server
        · rw [hacc.1 ha, hI.all ha]; exact List.prefix_refl _
        · rw [hacc.2 ha]; exact hI.acc.trans (List.prefix_append _ _)
      · show acceptedOn x c = ((sentOn (s.clients i) k).take
          (if c = c then s.up c + 1 else s.up c)).map msgInput
        simp only [if_true, htake, List.map_append]
        have ha := dead_stays h ha
        rw [hacc.1 ha, hI.all ha]; rfl
    · have := hserver _ x h ho (by rintro f ⟨⟩; exact e rfl)
      refine ⟨?_, ?_, fun ha => ?_⟩
      · show (if c = c' then s.up c' + 1 else s.up c) ≤ _
        rw [if_neg e]; exact hI.le
      · show acceptedOn x c <+: ((sentOn (s.clients i) k).take
          (if c = c' then s.up c' + 1 else s.up c)).map msgInput
        rw [if_neg e, this.1]; exact hI.acc
      · show acceptedOn x c = ((sentOn (s.clients i) k).take
          (if c = c' then s.up c' + 1 else s.up c)).map msgInput
        rw [if_neg e, this.1]; exact hI.all (this.2 ha)
  | respond c' j k' r x ho' hm h =>
    refine hclient j x _ ho ?_
    rw [(client_message h).2.1]; exact List.prefix_refl _

/-! ## Where responses come from -/

/-- The reply of a request in the middle of the log. -/
theorem mem_repliesTo {sv : Service σ C} {c : Nat} {r : Response} {l : List (Nat × Server.Input)} :
    ∀ {b : σ}, r ∈ repliesTo sv c b l → ∃ l₁ i l₂, l = l₁ ++ (c, i) :: l₂ ∧
      (exec1 sv (replay sv b l₁) i).2 = some r := by
  induction l with
  | nil => intro b h; simp [repliesTo] at h
  | cons p l ih =>
    intro b h
    obtain ⟨c', i⟩ := p
    simp only [repliesTo, List.mem_append] at h
    rcases h with h | h
    · split at h
      · rename_i e
        subst e
        refine ⟨[], i, l, rfl, ?_⟩
        simpa [replay] using h
      · simp at h
    · obtain ⟨l₁, i', l₂, h1, h2⟩ := ih h
      exact ⟨(c', i) :: l₁, i', l₂, by rw [h1]; rfl, h2⟩

theorem mem_streams {sv : Service σ C} {st : Started} {l : List (Nat × Server.Input)} :
    ∀ {b : σ} {t : Nat}, (streams sv b l)[t]? = some st → ∃ l₁ i l₂, l = l₁ ++ (st.conn, i) :: l₂ ∧
      starts sv (replay sv b l₁) st.conn i = some st ∧ (streams sv b l₁).length = t := by
  induction l with
  | nil => intro b t h; simp [streams] at h
  | cons p l ih =>
    intro b t h
    obtain ⟨c', i⟩ := p
    simp only [streams] at h
    have hlater : ∀ {t'}, (streams sv (exec1 sv b i).1 l)[t']? = some st →
        t = (starts sv b c' i).toList.length + t' →
        ∃ l₁ i' l₂, (c', i) :: l = l₁ ++ (st.conn, i') :: l₂ ∧
          starts sv (replay sv b l₁) st.conn i' = some st ∧ (streams sv b l₁).length = t := by
      intro t' h' ht
      obtain ⟨l₁, i', l₂, h1, h2, h3⟩ := ih h'
      exact ⟨(c', i) :: l₁, i', l₂, by rw [h1]; rfl, h2, by
        simp only [streams, List.length_append]; omega⟩
    cases hs : starts sv b c' i with
    | none =>
      rw [hs] at h
      exact hlater (t' := t) (by simpa using h) (by rw [hs]; simp)
    | some st' =>
      rw [hs] at h
      cases t with
      | zero =>
        simp only [Option.toList_some, List.cons_append, List.nil_append,
          List.getElem?_cons_zero, Option.some.injEq] at h
        subst h
        have hc : st'.conn = c' := by
          unfold starts at hs
          split at hs
          · split at hs
            · split at hs
              · cases hs; rfl
              · cases hs
            · cases hs
          · cases hs
        exact ⟨[], i, l, by rw [hc]; rfl, by rw [hc]; exact hs, rfl⟩
      | succ t =>
        exact hlater (t' := t) (by simpa using h) (by rw [hs]; simp; omega)

theorem mem_firstItems {st : Started} {r : Response} {n : Nat} (h : r ∈ firstItems st n) :
    ∃ j x, j < n ∧ st.items j = some x ∧ r = itemResponse st.id x := by
  induction n with
  | zero => simp [firstItems] at h
  | succ n ih =>
    simp only [firstItems, List.mem_append] at h
    rcases h with h | h
    · obtain ⟨j, x, h1, h2⟩ := ih h; exact ⟨j, x, by omega, h2⟩
    · cases hx : st.items n with
      | none => simp [hx] at h
      | some x => simp [hx] at h; exact ⟨n, x, by omega, hx, h⟩

/-- Every response on a connection answers a request of that connection: it is its direct reply, or
an item of the stream it started. -/
theorem produced_source {sv : Service σ C} {b : σ} {x : Server.State σ C}
    (hr : Server.Reachable sv b x) {c : Nat} {src : Option Nat} {r : Response}
    (h : (src, r) ∈ (x.conns c).produced) :
    ∃ l₁ i l₂, x.log = l₁ ++ (c, i) :: l₂ ∧
      ((src = none ∧ (exec1 sv (replay sv b l₁) i).2 = some r) ∨
       ∃ t st j y, src = some t ∧ (streams sv b x.log)[t]? = some st ∧
         starts sv (replay sv b l₁) c i = some st ∧
         st.items j = some y ∧ r = itemResponse st.id y ∧ (streams sv b l₁).length = t) := by
  cases src with
  | none =>
    have hm : r ∈ (x.conns c).replies := by
      unfold Server.Conn.replies
      exact List.mem_map.2 ⟨(none, r), List.mem_filter.2 ⟨h, by simp⟩, rfl⟩
    obtain ⟨l₁, i, l₂, h1, h2⟩ := mem_repliesTo ((Server.inv_replies hr c).2.subset hm)
    exact ⟨l₁, i, l₂, h1, .inl ⟨rfl, h2⟩⟩
  | some t =>
    have hm : r ∈ (x.conns c).itemsOf t := by
      unfold Server.Conn.itemsOf
      exact List.mem_map.2 ⟨(some t, r), List.mem_filter.2 ⟨h, by simp⟩, rfl⟩
    have hI := Server.inv_items hr t
    have hc : ¬ (x.ntask ≤ t ∨ c ≠ (x.tasks t).conn) := by
      intro hh
      rw [hI.1 c hh] at hm; simp at hm
    have ht : t < x.ntask := by omega
    have hc' : c = (x.tasks t).conn := Classical.byContradiction fun e => hc (.inr e)
    obtain ⟨n, _, _, h3⟩ := hI.2.2 ht
    rw [hc', h3] at hm
    obtain ⟨j, y, _, h5, h6⟩ := mem_firstItems hm
    have hst := (Server.inv_streams hr).2 t ht
    obtain ⟨l₁, i, l₂, h7, h8, h9⟩ := mem_streams hst
    refine ⟨l₁, i, l₂, ?_, .inr ⟨t, _, j, y, rfl, hst, ?_, h5, h6, h9⟩⟩
    · rw [hc']; exact h7
    · rw [hc']; exact h8

end Verif.System
