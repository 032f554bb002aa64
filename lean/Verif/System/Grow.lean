import Verif.Spec.GrowSystem
import Verif.Rpc.Grow
import Verif.System.Down
import Verif.System.Calm
import Verif.Client.History

/-!
# Projects whose backend grows
-/

namespace Verif.System
open Verif Verif.DispatchSpec Verif.WireSpec
open Verif.Server (StRel Simulates NamesFunction GoodIn GoodLabel)

section
variable {S V : Type}

theorem hasFunction_asks {b : BackendDef S V} {ns method : Str} (h : HasFunction b ns method) (id : Nat) (args : List Json) :
    Asks b (clientMessage id ns method args) := by
  obtain ⟨n, hn, rfl, f, hf, rfl⟩ := h
  intro id' v hv
  cases (decode_iff _ _).1 hv with
  | @exec kvs _ m hid hs hg hno =>
    refine ⟨m, n, f, rfl, hn, hf, ?_, ?_⟩
    · rw [hg _ (by decide)]; rfl
    · rw [hg _ (by decide)]; rfl

theorem asks_good {b : BackendDef S V} {doc : Json} (h : Asks b doc) : GoodIn (NamesFunction b) (Server.frameInput (some doc)) := by
  intro id v he
  have hd : Request.decode doc = .ok (.exec id v) := by
    simp only [Server.frameInput] at he
    split at he
    · rename_i r hr
      cases he
      exact hr
    · cases he
  obtain ⟨m, n, f, rfl, h1, h2, h3, h4⟩ := h id v hd
  cases (decode_iff doc _).1 hd with
  | exec _ hs _ _ => exact ⟨m, n, f, hs, rfl, h1, h2, h3, h4⟩

theorem frame_good {b : BackendDef S V} {m : Client.Msg} (h : HasFunction b m.ns m.method) (c : Nat) :
    GoodLabel (NamesFunction b) (.frame c (frameOf m)) := by
  intro c' doc e
  cases e
  exact asks_good (hasFunction_asks h m.id m.args)

/-- No label but a frame is bad. -/
theorem goodLabel_other {G : Json → Prop} {l : Server.Label} (h : ∀ c f, l ≠ .frame c f) : GoodLabel G l :=
  fun c doc e => absurd e (h c (.text doc))

/-- The clients have called functions of the backend only. -/
def CallsOf {σ C : Type} (b : BackendDef S V) (s : State σ C) : Prop :=
  ∀ i, ∀ m ∈ (s.clients i).calls, HasFunction b m.ns m.method

theorem callsOf_client {b : BackendDef S V} {x y : Client.State} {l : Client.Label} (h : Client.step x l = some y)
    (hl : ∀ j, Label.asks b (.client j l)) (hx : ∀ m ∈ x.calls, HasFunction b m.ns m.method) :
    ∀ m ∈ y.calls, HasFunction b m.ns m.method := by
  intro m hm
  have hh := (Client.step_history h).1
  have hm' : Client.callOf m ∈ y.calls.map Client.callOf := List.mem_map.2 ⟨m, hm, rfl⟩
  rw [hh] at hm'
  rcases List.mem_append.1 hm' with hm' | hm'
  · obtain ⟨m₀, h1, h2⟩ := List.mem_map.1 hm'
    have h3 := hx m₀ h1
    simp only [Client.callOf, Prod.mk.injEq] at h2
    rw [← h2.1, ← h2.2.1]; exact h3
  · cases l with
    | request ns method args =>
      simp only [ClientSpec.callsOf, Client.callOf, List.mem_singleton, Prod.mk.injEq] at hm'
      rw [hm'.1, hm'.2.1]; exact hl 0
    | subscribe ns method args =>
      simp only [ClientSpec.callsOf, Client.callOf, List.mem_singleton, Prod.mk.injEq] at hm'
      rw [hm'.1, hm'.2.1]; exact hl 0
    | _ => simp [ClientSpec.callsOf] at hm'

end

section
variable {σ C : Type}

/-- The second state is the first one with another server in a related state. -/
inductive SysRel (RB : σ → σ → Prop) (RC : C → C → Prop) (G : Json → Prop) : State σ C → State σ C → Prop where
  | mk (s : State σ C) {x x' : Server.State σ C} : StRel RB RC G x x' →
      SysRel RB RC G { s with server := x } { s with server := x' }

/-- Both steps are not enabled, or lead to related states. -/
def BothSys (R : State σ C → State σ C → Prop) (x y : Option (State σ C)) : Prop :=
  (x = none ∧ y = none) ∨ ∃ s s', x = some s ∧ y = some s' ∧ R s s'

variable {sv sv' : Service σ C} {RB : σ → σ → Prop} {RC : C → C → Prop} {G : Json → Prop}

theorem bothSys_some {R : State σ C → State σ C → Prop} {s s' : State σ C} (h : R s s') : BothSys R (some s) (some s') :=
  .inr ⟨s, s', rfl, rfl, h⟩

theorem bothSys_none {R : State σ C → State σ C → Prop} : BothSys R none none := .inl ⟨rfl, rfl⟩

theorem stRel_conns {x x' : Server.State σ C} (h : StRel RB RC G x x') : x'.conns = x.conns ∧ x'.nconn = x.nconn := by
  obtain ⟨s, _, _, _⟩ := h
  exact ⟨rfl, rfl⟩

theorem client_both (s : State σ C) {x x' : Server.State σ C} (h : StRel RB RC G x x') (i : Nat) (l : Client.Label) :
    BothSys (SysRel RB RC G) (State.clientStep { s with server := x } i l) (State.clientStep { s with server := x' } i l) := by
  unfold State.clientStep
  cases Client.step (s.clients i) l with
  | none => exact bothSys_none
  | some y => exact bothSys_some (.mk (s.setClient i y) h)

theorem server_both (H : Simulates sv sv' RB RC G) (s : State σ C) {x x' : Server.State σ C} (h : StRel RB RC G x x')
    (l : Server.Label) (hg : GoodLabel G l) :
    BothSys (SysRel RB RC G) (State.serverStep sv { s with server := x } l) (State.serverStep sv' { s with server := x' } l) := by
  unfold State.serverStep
  rcases Server.step_alike H h l hg with ⟨h1, h2⟩ | ⟨y, y', h1, h2, h3⟩
  · rw [h1, h2]; exact bothSys_none
  · rw [h1, h2]; exact bothSys_some (.mk s h3)

/-- The frames of the label are good. -/
def GoodSys (G : Json → Prop) (s : State σ C) : Label → Prop
  | .foreignFrame _ (.text doc) => GoodIn G (Server.frameInput doc)
  | .deliver c => ∀ i k m, s.owner c = some (i, k) → (sentOn (s.clients i) k)[s.up c]? = some m →
      GoodLabel G (.frame c (frameOf m))
  | _ => True

theorem step_both (H : Simulates sv sv' RB RC G) {s s' : State σ C} (h : SysRel RB RC G s s') (l : Label) (hg : GoodSys G s l) :
    BothSys (SysRel RB RC G) (step sv s l) (step sv' s' l) := by
  obtain ⟨s, hs⟩ := h
  rename_i x x'
  obtain ⟨hc, hn⟩ := stRel_conns hs
  have hun : ∀ i k, State.unowned { s with server := x' } i k = State.unowned { s with server := x } i k := by
    intro i k; simp only [State.unowned, hn]
  have hcl : ∀ i k, State.serverClosed { s with server := x' } i k = State.serverClosed { s with server := x } i k := by
    intro i k; simp only [State.serverClosed, hn, hc]
  cases l with
  | client i l =>
    simp only [step]
    cases isLocal l with
    | false => exact bothSys_none
    | true => exact client_both s hs i l
  | server l =>
    simp only [step]
    cases hi : isInternal l with
    | false => exact bothSys_none
    | true =>
      refine server_both H s hs l (goodLabel_other ?_)
      rintro c f rfl
      simp [isInternal] at hi
  | accept i k =>
    simp only [step, hun]
    by_cases hcond : ((s.clients i).socks k).st ≠ .closed ∧ ((s.clients i).socks k).wasOpen = false ∧
        State.unowned { s with server := x } i k = true
    · rw [if_pos hcond, if_pos hcond]
      rcases Server.step_alike H hs .connect (goodLabel_other (fun _ _ => nofun)) with ⟨h1, h2⟩ | ⟨y, y', h1, h2, h3⟩
      · rw [h1, h2]; exact bothSys_none
      · rw [h1, h2]
        simp only [hn]
        exact bothSys_some (.mk { s with owner := fun c => if c = x.nconn then some (i, k) else s.owner c } h3)
    · rw [if_neg hcond, if_neg hcond]; exact bothSys_none
  | opened c =>
    simp only [step]
    cases s.owner c with
    | none => exact bothSys_none
    | some p => exact client_both s hs p.1 (.opened p.2)
  | deliver c =>
    simp only [step]
    cases ho : s.owner c with
    | none => exact bothSys_none
    | some p =>
      obtain ⟨i, k⟩ := p
      simp only
      cases hm : (sentOn (s.clients i) k)[s.up c]? with
      | none => exact bothSys_none
      | some m =>
        simp only
        rcases Server.step_alike H hs (.frame c (frameOf m)) (hg i k m ho hm) with ⟨h1, h2⟩ | ⟨y, y', h1, h2, h3⟩
        · rw [h1, h2]; exact bothSys_none
        · rw [h1, h2]
          exact bothSys_some (.mk { s with up := fun c' => if c' = c then s.up c + 1 else s.up c' } h3)
  | respond c =>
    simp only [step, hc]
    cases s.owner c with
    | none => exact bothSys_none
    | some p =>
      obtain ⟨i, k⟩ := p
      simp only
      cases (x.conns c).written[s.down c]? with
      | none => exact bothSys_none
      | some r =>
        simp only
        cases Client.step (s.clients i) (.message k (incoming r)) with
        | none => exact bothSys_none
        | some y =>
          exact bothSys_some (.mk { s.setClient i y with down := fun c' => if c' = c then s.down c + 1 else s.down c' } hs)
  | endUp c =>
    simp only [step]
    cases s.owner c with
    | none => exact bothSys_none
    | some p =>
      obtain ⟨i, k⟩ := p
      simp only
      by_cases hcond : ((s.clients i).socks k).st = .closing ∨ ((s.clients i).socks k).st = .closed
      · rw [if_pos hcond, if_pos hcond]; exact server_both H s hs _ (goodLabel_other (fun _ _ => nofun))
      · rw [if_neg hcond, if_neg hcond]; exact bothSys_none
  | beginDown i k =>
    simp only [step, hcl]
    by_cases hcond : State.serverClosed { s with server := x } i k = true
    · rw [if_pos hcond, if_pos hcond]; exact client_both s hs _ _
    · rw [if_neg hcond, if_neg hcond]; exact bothSys_none
  | endDown i k =>
    simp only [step, hcl]
    by_cases hcond : ((s.clients i).socks k).st = .closing ∨ State.serverClosed { s with server := x } i k = true
    · rw [if_pos hcond, if_pos hcond]; exact client_both s hs _ _
    · rw [if_neg hcond, if_neg hcond]; exact bothSys_none
  | foreignConnect => exact server_both H s hs .connect (goodLabel_other (fun _ _ => nofun))
  | foreignFrame c f =>
    simp only [step]
    cases s.owner c with
    | some p => exact bothSys_none
    | none =>
      refine server_both H s hs (.frame c f) ?_
      intro c' doc e
      cases e
      exact hg
  | foreignEnd c =>
    simp only [step]
    cases s.owner c with
    | some p => exact bothSys_none
    | none => exact server_both H s hs _ (goodLabel_other (fun _ _ => nofun))
  | failUp c => exact server_both H s hs _ (goodLabel_other (fun _ _ => nofun))
  | failWrite c => exact server_both H s hs _ (goodLabel_other (fun _ _ => nofun))
  | failBegin i k => exact client_both s hs _ _
  | failDown i k f => exact client_both s hs _ _

end

section
variable {S V : Type}

theorem callsOf_step {σ C : Type} {sv : Service σ C} {b : BackendDef S V} {s s' : State σ C} {l : Label} (h : step sv s l = some s')
    (hl : l.asks b) (hs : CallsOf b s) : CallsOf b s' := by
  intro i
  have hset : ∀ j cl y, Client.step (s.clients j) cl = some y → (∀ j, Label.asks b (.client j cl)) →
      ∀ m ∈ ((s.setClient j y).clients i).calls, HasFunction b m.ns m.method := by
    intro j cl y hy ha
    by_cases e : i = j
    · subst e; rw [setClient_self]; exact callsOf_client hy ha (hs i)
    · rw [setClient_ne _ _ e]; exact hs i
  have hclient : ∀ j cl, (∀ j, Label.asks b (.client j cl)) → s.clientStep j cl = some s' →
      ∀ m ∈ (s'.clients i).calls, HasFunction b m.ns m.method := by
    intro j cl ha h
    obtain ⟨y, hy, rfl⟩ := map_some h
    exact hset j cl y hy ha
  have hserver : ∀ sl, s.serverStep sv sl = some s' → ∀ m ∈ (s'.clients i).calls, HasFunction b m.ns m.method := by
    intro sl h
    obtain ⟨y, hy, rfl⟩ := map_some h
    exact hs i
  cases l with
  | client j cl =>
    simp only [step] at h
    split at h
    · refine hclient j cl ?_ h
      intro j'
      cases cl with
      | request => exact hl
      | subscribe => exact hl
      | _ => trivial
    · cases h
  | server sl =>
    simp only [step] at h
    split at h
    · exact hserver sl h
    · cases h
  | accept i' k =>
    simp only [step] at h
    split at h
    · split at h
      · cases h; exact hs i
      · cases h
    · cases h
  | opened c =>
    simp only [step] at h
    split at h
    · exact hclient _ _ (fun _ => by simp only [Label.asks]) h
    · cases h
  | deliver c =>
    simp only [step] at h
    split at h
    · split at h
      · split at h
        · cases h; exact hs i
        · cases h
      · cases h
    · cases h
  | respond c =>
    simp only [step] at h
    split at h
    · split at h
      · split at h
        · rename_i y hy
          cases h
          exact hset _ _ y hy (fun _ => trivial)
        · cases h
      · cases h
    · cases h
  | endUp c =>
    simp only [step] at h
    split at h
    · split at h
      · exact hserver _ h
      · cases h
    · cases h
  | beginDown i' k =>
    simp only [step] at h
    split at h
    · exact hclient _ _ (fun _ => by simp only [Label.asks]) h
    · cases h
  | endDown i' k =>
    simp only [step] at h
    split at h
    · exact hclient _ _ (fun _ => by simp only [Label.asks]) h
    · cases h
  | foreignConnect => exact hserver _ h
  | foreignFrame c f =>
    simp only [step] at h
    split at h
    · cases h
    · exact hserver _ h
  | foreignEnd c =>
    simp only [step] at h
    split at h
    · cases h
    · exact hserver _ h
  | failUp c => exact hserver _ h
  | failWrite c => exact hserver _ h
  | failBegin i' k => exact hclient _ _ (fun _ => by simp only [Label.asks]) h
  | failDown i' k f => exact hclient _ _ (fun _ => by simp only [Label.asks]) h

theorem goodSys_asks {b : BackendDef S V} {sv : Service (List S) (Call V)} {st : List S} {s : State (List S) (Call V)}
    (hr : Reachable sv st s) (hs : CallsOf b s) {l : Label} (hl : l.asks b) : GoodSys (NamesFunction b) s l := by
  cases l with
  | deliver c =>
    intro i k m ho hm
    have h1 : m ∈ (s.clients i).calls := sent_calls (hr.client i) (sentOn_sent.1 (List.mem_of_getElem? hm))
    exact frame_good (hs i m h1) c
  | foreignFrame c f =>
    cases f with
    | other => trivial
    | text doc =>
      cases doc with
      | none => intro id v e; cases e
      | some doc => exact asks_good hl
  | _ => trivial

theorem run_both {b b' : BackendDef S V} (H : Simulates b.service b'.service (fun st st' => Extends b.fields st b'.fields st')
    (Server.SameCall b b') (NamesFunction b)) {st : List S} (ls : List Label) :
    ∀ {s s' : State (List S) (Call V)}, Reachable b.service st s → CallsOf b s →
      SysRel (fun st st' => Extends b.fields st b'.fields st') (Server.SameCall b b') (NamesFunction b) s s' →
      (∀ l ∈ ls, l.asks b) → BothSys (SysRel (fun st st' => Extends b.fields st b'.fields st') (Server.SameCall b b') (NamesFunction b))
        (run b.service s ls) (run b'.service s' ls) := by
  induction ls with
  | nil => intro s s' _ _ h _; exact bothSys_some h
  | cons l ls ih =>
    intro s s' hr hc h hls
    have hl := hls l List.mem_cons_self
    simp only [run]
    rcases step_both H h l (goodSys_asks hr hc hl) with ⟨h1, h2⟩ | ⟨t, t', h1, h2, h3⟩
    · rw [h1, h2]; exact bothSys_none
    · rw [h1, h2]
      exact ih (hr.step h1) (callsOf_step h1 hl hc) h3 (fun l hl => hls l (List.mem_cons_of_mem _ hl))

end

end Verif.System
