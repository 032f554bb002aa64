import Verif.Spec.Grow
import Verif.Rpc.DispatchLemmas
import Verif.Rpc.WireLemmas

/-!
# Servers of backends that grow

A simulation: a server and the server with more functions make the same steps for requests of the functions both have.
-/

namespace Verif.Server
open Verif Verif.DispatchSpec Verif.WireSpec

section
variable {σ C : Type}

/-- The loops of two servers, with related calls. -/
inductive LoopRel (RC : C → C → Prop) : Loop C → Loop C → Prop where
  | idle : LoopRel RC .idle .idle
  | dead : LoopRel RC .dead .dead
  | busy (c id : Nat) {call call' : C} (inp : Input) : RC call call' → LoopRel RC (.busy c id call inp) (.busy c id call' inp)

/-- The values of a request are good. -/
def GoodIn (G : Json → Prop) (inp : Input) : Prop := ∀ id v, inp = .ok (.exec id v) → G v

/-- Two services that do the same for good values. -/
structure Simulates (sv sv' : Service σ C) (RB : σ → σ → Prop) (RC : C → C → Prop) (G : Json → Prop) : Prop where
  decode : ∀ v, G v → (∃ e, sv.decode v = .error e ∧ sv'.decode v = .error e) ∨
    ∃ c c', sv.decode v = .ok c ∧ sv'.decode v = .ok c' ∧ RC c c'
  isStream : ∀ c c', RC c c' → sv'.isStream c' = sv.isStream c
  method : ∀ b b' c c', RB b b' → RC c c' → RB (sv.runMethod b c).1 (sv'.runMethod b' c').1 ∧
    (sv'.runMethod b' c').2 = (sv.runMethod b c).2
  stream : ∀ b b' c c', RB b b' → RC c c' → RB (sv.runStream b c).1 (sv'.runStream b' c').1 ∧
    (sv'.runStream b' c').2 = (sv.runStream b c).2

/-- The second state is the first one with another backend and a related loop. -/
inductive StRel (RB : σ → σ → Prop) (RC : C → C → Prop) (G : Json → Prop) : State σ C → State σ C → Prop where
  | mk (s : State σ C) {b' : σ} {l l' : Loop C} {b : σ} : RB b b' → LoopRel RC l l' → (∀ x ∈ s.queue, GoodIn G x.2) →
      StRel RB RC G { s with backend := b, loop := l } { s with backend := b', loop := l' }

/-- Both steps are not enabled, or lead to related states. -/
def Both (R : State σ C → State σ C → Prop) (x y : Option (State σ C)) : Prop :=
  (x = none ∧ y = none) ∨ ∃ s s', x = some s ∧ y = some s' ∧ R s s'

variable {sv sv' : Service σ C} {RB : σ → σ → Prop} {RC : C → C → Prop} {G : Json → Prop}

theorem both_some {R : State σ C → State σ C → Prop} {s s' : State σ C} (h : R s s') : Both R (some s) (some s') :=
  .inr ⟨s, s', rfl, rfl, h⟩

theorem both_none {R : State σ C → State σ C → Prop} : Both R none none := .inl ⟨rfl, rfl⟩

/-- Labels whose frames carry good values. -/
def GoodLabel (G : Json → Prop) (l : Label) : Prop := ∀ c doc, l = .frame c (.text doc) → GoodIn G (frameInput doc)

theorem take_alike (H : Simulates sv sv' RB RC G) (s : State σ C) {b b' : σ} (hb : RB b b') (c : Nat) (inp : Input)
    (q : List (Nat × Input)) (hq : ∀ x ∈ (c, inp) :: q, GoodIn G x.2) :
    StRel RB RC G (takeStep sv { s with backend := b, loop := .idle } c inp q)
      (takeStep sv' { s with backend := b', loop := .idle } c inp q) := by
  have hq' : ∀ x ∈ q, GoodIn G x.2 := fun x hx => hq x (List.mem_cons_of_mem _ hx)
  cases inp with
  | error r =>
    exact .mk { s with queue := q, conns := upd s.conns c ((s.conns c).send none r).1, log := s.log ++ [(c, .error r)] } hb .idle hq'
  | ok req =>
    cases req with
    | cancelStream id =>
      simp only [takeStep]
      cases subsGet s.subs id with
      | some t =>
        exact .mk { s with queue := q, tasks := upd s.tasks t (s.tasks t).abort, subs := subsRemove s.subs id,
                           log := s.log ++ [(c, .ok (.cancelStream id))] } hb .idle hq'
      | none => exact .mk { s with queue := q, log := s.log ++ [(c, .ok (.cancelStream id))] } hb .idle hq'
    | exec id v =>
      have hv : G v := hq _ List.mem_cons_self _ _ rfl
      simp only [takeStep]
      rcases H.decode v hv with ⟨e, h1, h2⟩ | ⟨x, x', h1, h2, hx⟩
      · rw [h1, h2]
        exact .mk { s with queue := q, conns := upd s.conns c ((s.conns c).send none (Response.mkError (some id) e)).1,
                           log := s.log ++ [(c, .ok (.exec id v))] } hb .idle hq'
      · rw [h1, h2]
        simp only [H.isStream x x' hx]
        cases sv.isStream x with
        | false => exact .mk { s with queue := q } hb (.busy c id _ hx) hq'
        | true =>
          obtain ⟨h3, h4⟩ := H.stream b b' x x' hb hx
          simp only [if_true, h4]
          exact .mk
            { s with
              queue := q
              tasks := upd s.tasks s.ntask { conn := c, id := id, src := (sv.runStream b x).2, pos := 0, st := .suspended }
              ntask := s.ntask + 1
              subs := subsInsert s.subs id s.ntask
              log := s.log ++ [(c, .ok (.exec id v))] } h3 .idle hq'

theorem kill_alike (s : State σ C) {b b' : σ} {l l' : Loop C} (hb : RB b b') :
    StRel RB RC G (State.killLoop { s with backend := b, loop := l }) (State.killLoop { s with backend := b', loop := l' }) :=
  .mk { s.dropSubs with queue := [] } hb .dead (fun x hx => by cases hx)

theorem step_alike (H : Simulates sv sv' RB RC G) {s s' : State σ C} (h : StRel RB RC G s s') (l : Label) (hg : GoodLabel G l) :
    Both (StRel RB RC G) (step sv s l) (step sv' s' l) := by
  obtain ⟨s, hb, hl, hq⟩ := h
  rename_i b' lp lp' b
  cases l with
  | connect =>
    simp only [step]
    cases s.held with
    | false => exact both_none
    | true => exact both_some (.mk { s with held := true, conns := upd s.conns s.nconn freshConn, nconn := s.nconn + 1 } hb hl hq)
  | frame c f =>
    simp only [step]
    cases (s.conns c).alive with
    | false => exact both_none
    | true =>
      simp only [if_true]
      cases f with
      | other => exact both_some (.mk s hb hl hq)
      | text doc =>
        have hq2 : ∀ x ∈ s.queue ++ [(c, frameInput doc)], GoodIn G x.2 := by
          intro x hx
          rcases List.mem_append.1 hx with hx | hx
          · exact hq x hx
          · rw [List.mem_singleton.1 hx]; exact hg _ _ rfl
        cases hl with
        | idle =>
          exact both_some (.mk { s with queue := s.queue ++ [(c, frameInput doc)], accepted := s.accepted ++ [(c, frameInput doc)] }
            hb .idle hq2)
        | dead => exact both_some (.mk { s with conns := upd s.conns c (s.conns c).close } hb .dead hq)
        | busy c' id inp hc =>
          exact both_some (.mk { s with queue := s.queue ++ [(c, frameInput doc)], accepted := s.accepted ++ [(c, frameInput doc)] }
            hb (.busy c' id inp hc) hq2)
  | recvEnd c =>
    simp only [step]
    cases (s.conns c).alive with
    | false => exact both_none
    | true => exact both_some (.mk { s with conns := upd s.conns c (s.conns c).close } hb hl hq)
  | take =>
    simp only [step]
    cases hl with
    | dead => exact both_none
    | busy => exact both_none
    | idle =>
      cases hqe : s.queue with
      | nil => exact both_none
      | cons x q =>
        obtain ⟨c, inp⟩ := x
        rw [hqe] at hq
        exact both_some (by simpa only [hqe] using take_alike H s hb c inp q hq)
  | takePanic =>
    simp only [step]
    cases hl with
    | dead => exact both_none
    | busy => exact both_none
    | idle =>
      cases hqe : s.queue with
      | nil => exact both_none
      | cons x q =>
        obtain ⟨c, inp⟩ := x
        cases inp with
        | error r => exact both_none
        | ok req =>
          cases req with
          | cancelStream id => exact both_none
          | exec id v =>
            rw [hqe] at hq
            have hv : G v := hq _ List.mem_cons_self _ _ rfl
            simp only
            rcases H.decode v hv with ⟨e, h1, h2⟩ | ⟨y, y', h1, h2, hy⟩
            · rw [h1, h2]; exact both_none
            · rw [h1, h2]
              simp only [H.isStream y y' hy]
              cases sv.isStream y with
              | false => exact both_none
              | true => exact both_some (by simpa only [hqe] using kill_alike s hb)
  | methodDone =>
    simp only [step]
    cases hl with
    | idle => exact both_none
    | dead => exact both_none
    | @busy c id x x' inp hx =>
      obtain ⟨h3, h4⟩ := H.method b b' x x' hb hx
      simp only [h4]
      unfold Conn.send
      cases (s.conns c).alive with
      | false =>
        exact both_some (kill_alike { s with conns := upd s.conns c (s.conns c), log := s.log ++ [(c, inp)] } h3)
      | true =>
        refine both_some (.mk
          { s with
            conns := upd s.conns c { s.conns c with
              alive := true,
              chan := (s.conns c).chan ++ [Response.mkMethod id (sv.runMethod b x).2],
              produced := (s.conns c).produced ++ [(none, Response.mkMethod id (sv.runMethod b x).2)] }
            log := s.log ++ [(c, inp)] } h3 .idle hq)
  | methodPanic =>
    simp only [step]
    cases hl with
    | idle => exact both_none
    | dead => exact both_none
    | busy c id inp hx => exact both_some (kill_alike s hb)
  | poll t =>
    simp only [step]
    cases (s.tasks t).st with
    | suspended => exact both_some (.mk { s with tasks := upd s.tasks t { s.tasks t with st := .running } } hb hl hq)
    | _ => exact both_none
  | item t =>
    simp only [step]
    have key : ∀ (z : TaskSt) (x : Option (Except SerdeErr Json)), Both (StRel RB RC G)
        (match x with
          | none => some (State.setTask { s with backend := b, loop := lp } t { s.tasks t with st := .done })
          | some x =>
            if ((s.conns (s.tasks t).conn).send (some t) (Response.mkStream (s.tasks t).id x)).2 then
              some ((State.setConn { s with backend := b, loop := lp } (s.tasks t).conn
                ((s.conns (s.tasks t).conn).send (some t) (Response.mkStream (s.tasks t).id x)).1).setTask t
                { s.tasks t with pos := (s.tasks t).pos + 1, st := z })
            else
              some ((State.setConn { s with backend := b, loop := lp } (s.tasks t).conn
                ((s.conns (s.tasks t).conn).send (some t) (Response.mkStream (s.tasks t).id x)).1).setTask t
                { s.tasks t with pos := (s.tasks t).pos + 1, st := .done }))
        (match x with
          | none => some (State.setTask { s with backend := b', loop := lp' } t { s.tasks t with st := .done })
          | some x =>
            if ((s.conns (s.tasks t).conn).send (some t) (Response.mkStream (s.tasks t).id x)).2 then
              some ((State.setConn { s with backend := b', loop := lp' } (s.tasks t).conn
                ((s.conns (s.tasks t).conn).send (some t) (Response.mkStream (s.tasks t).id x)).1).setTask t
                { s.tasks t with pos := (s.tasks t).pos + 1, st := z })
            else
              some ((State.setConn { s with backend := b', loop := lp' } (s.tasks t).conn
                ((s.conns (s.tasks t).conn).send (some t) (Response.mkStream (s.tasks t).id x)).1).setTask t
                { s.tasks t with pos := (s.tasks t).pos + 1, st := .done })) := by
      intro z x
      cases x with
      | none => exact both_some (.mk { s with tasks := upd s.tasks t { s.tasks t with st := .done } } hb hl hq)
      | some x =>
        simp only
        generalize (s.conns (s.tasks t).conn).send (some t) (Response.mkStream (s.tasks t).id x) = snd
        cases snd.2 with
        | true =>
          exact both_some (.mk { s with conns := upd s.conns (s.tasks t).conn snd.1,
                                        tasks := upd s.tasks t { s.tasks t with pos := (s.tasks t).pos + 1, st := z } } hb hl hq)
        | false =>
          exact both_some (.mk { s with conns := upd s.conns (s.tasks t).conn snd.1,
                                        tasks := upd s.tasks t { s.tasks t with pos := (s.tasks t).pos + 1, st := .done } } hb hl hq)
    cases (s.tasks t).st with
    | running => exact key .running ((s.tasks t).src (s.tasks t).pos)
    | runningAborted => exact key .runningAborted ((s.tasks t).src (s.tasks t).pos)
    | _ => exact both_none
  | itemPanic t =>
    simp only [step]
    cases (s.tasks t).st with
    | running => exact both_some (.mk { s with tasks := upd s.tasks t { s.tasks t with st := .done } } hb hl hq)
    | runningAborted => exact both_some (.mk { s with tasks := upd s.tasks t { s.tasks t with st := .done } } hb hl hq)
    | _ => exact both_none
  | pending t =>
    simp only [step]
    cases (s.tasks t).st with
    | running => exact both_some (.mk { s with tasks := upd s.tasks t { s.tasks t with st := .suspended } } hb hl hq)
    | runningAborted => exact both_some (.mk { s with tasks := upd s.tasks t { s.tasks t with st := .cancelled } } hb hl hq)
    | _ => exact both_none
  | flush c =>
    simp only [step]
    cases (s.conns c).alive with
    | false => exact both_none
    | true =>
      simp only [if_true]
      cases (s.conns c).chan with
      | nil => exact both_none
      | cons r rs =>
        exact both_some (.mk { s with conns := upd s.conns c { s.conns c with alive := true, chan := rs, written := (s.conns c).written ++ [r] } } hb hl hq)
  | flushFail c =>
    simp only [step]
    cases (s.conns c).alive with
    | false => exact both_none
    | true =>
      simp only [if_true]
      cases (s.conns c).chan with
      | nil => exact both_none
      | cons r rs => exact both_some (.mk { s with conns := upd s.conns c (s.conns c).close } hb hl hq)
  | dropProxy =>
    simp only [step]
    cases s.held with
    | false => exact both_none
    | true => exact both_some (.mk { s with held := false } hb hl hq)
  | loopExit =>
    simp only [step]
    cases hl with
    | dead => exact both_none
    | busy => exact both_none
    | idle =>
      cases hqe : s.queue with
      | cons x q => exact both_none
      | nil =>
        simp only
        cases (!s.held && (List.range s.nconn).all (fun c => !(s.conns c).alive)) with
        | false => exact both_none
        | true => exact both_some (by simpa only [hqe] using kill_alike s hb)

theorem run_alike (H : Simulates sv sv' RB RC G) (ls : List Label) : ∀ {s s' : State σ C}, StRel RB RC G s s' →
    (∀ l ∈ ls, GoodLabel G l) → Both (StRel RB RC G) (run sv s ls) (run sv' s' ls) := by
  induction ls with
  | nil => intro s s' h _; exact both_some h
  | cons l ls ih =>
    intro s s' h hg
    simp only [run]
    rcases step_alike H h l (hg l List.mem_cons_self) with ⟨h1, h2⟩ | ⟨t, t', h1, h2, h3⟩
    · rw [h1, h2]; exact both_none
    · rw [h1, h2]; exact ih h3 (fun l hl => hg l (List.mem_cons_of_mem _ hl))

theorem stRel_alike {s s' : State σ C} (h : StRel RB RC G s s') : Alike s s' ∧ RB s.backend s'.backend := by
  obtain ⟨s, hb, hl, hq⟩ := h
  refine ⟨⟨rfl, rfl, rfl, rfl, rfl, rfl, rfl, rfl, rfl, ?_, ?_⟩, hb⟩
  · cases hl <;> simp
  · cases hl <;> simp

end

/-! ## Backends -/

section
variable {S V : Type}

theorem extends_mem {fs fs' : List (NamespaceDef S V)} {st st' : List S} (h : Extends fs st fs' st') :
    ∀ n ∈ fs, ∃ n' ∈ fs', n'.ident = n.ident ∧ n.methods.Sublist n'.methods := by
  induction h with
  | nil => intro n hn; cases hn
  | @same n n' _ _ _ _ s h1 h2 _ ih =>
    intro k hk
    rcases List.mem_cons.1 hk with rfl | hk
    · exact ⟨n', List.mem_cons_self, h1, h2⟩
    · obtain ⟨k', h3, h4⟩ := ih k hk
      exact ⟨k', List.mem_cons_of_mem _ h3, h4⟩
  | new n s _ ih =>
    intro k hk
    obtain ⟨k', h3, h4⟩ := ih k hk
    exact ⟨k', List.mem_cons_of_mem _ h3, h4⟩

/-- The namespaces at the two places have the same name. -/
def Place (fs fs' : List (NamespaceDef S V)) (i i' : Nat) : Prop :=
  ∃ n n', fs[i]? = some n ∧ fs'[i']? = some n' ∧ n'.ident = n.ident

theorem extends_place {fs fs' : List (NamespaceDef S V)} {st st' : List S} (h : Extends fs st fs' st')
    (nd : (fs.map (·.ident)).Nodup) (nd' : (fs'.map (·.ident)).Nodup) {i i' : Nat} (hp : Place fs fs' i i') :
    st'[i']? = st[i]? ∧ ∀ x, Extends fs (st.set i x) fs' (st'.set i' x) := by
  induction h generalizing i i' with
  | nil => obtain ⟨n, _, h, _⟩ := hp; simp at h
  | @same n n' fs fs' st st' s h1 h2 h3 ih =>
    rw [List.map_cons, List.nodup_cons] at nd nd'
    obtain ⟨k, k', hk, hk', he⟩ := hp
    cases i with
    | zero =>
      simp only [List.getElem?_cons_zero, Option.some.injEq] at hk
      subst hk
      cases i' with
      | zero => exact ⟨rfl, fun x => .same x h1 h2 h3⟩
      | succ i' =>
        simp only [List.getElem?_cons_succ] at hk'
        exact absurd (List.mem_map.2 ⟨k', List.mem_of_getElem? hk', by rw [he, h1]⟩) nd'.1
    | succ i =>
      simp only [List.getElem?_cons_succ] at hk
      cases i' with
      | zero =>
        simp only [List.getElem?_cons_zero, Option.some.injEq] at hk'
        subst hk'
        exact absurd (List.mem_map.2 ⟨k, List.mem_of_getElem? hk, by rw [← he, h1]⟩) nd.1
      | succ i' =>
        simp only [List.getElem?_cons_succ] at hk'
        obtain ⟨h4, h5⟩ := ih nd.2 nd'.2 ⟨k, k', hk, hk', he⟩
        exact ⟨by simpa using h4, fun x => .same s h1 h2 (h5 x)⟩
  | @new n s fs fs' st st' h3 ih =>
    rw [List.map_cons, List.nodup_cons] at nd'
    obtain ⟨k, k', hk, hk', he⟩ := hp
    cases i' with
    | zero =>
      simp only [List.getElem?_cons_zero, Option.some.injEq] at hk'
      subst hk'
      obtain ⟨q, hq, hq', _⟩ := extends_mem h3 k (List.mem_of_getElem? hk)
      exact absurd (List.mem_map.2 ⟨q, hq, by rw [hq', he]⟩) nd'.1
    | succ i' =>
      simp only [List.getElem?_cons_succ] at hk'
      obtain ⟨h4, h5⟩ := ih nd nd'.2 ⟨k, k', hk, hk', he⟩
      exact ⟨by simpa using h4, fun x => .new n s (h5 x)⟩

/-- The value names a function of the backend. -/
def NamesFunction (b : BackendDef S V) (value : Json) : Prop :=
  ∃ m n f, BMap.Sorted m ∧ value = .obj m ∧ n ∈ b.fields ∧ f ∈ n.methods ∧
    BMap.get (lit "namespace") m = some (.str n.ident) ∧ BMap.get (lit "method") m = some (.str f.name)

/-- How a call by name is decoded. -/
theorem decodeCall_named {b : BackendDef S V} (hw : WellFormed b) {m : BMap Json} (hs : BMap.Sorted m) {i j : Nat} {n : NamespaceDef S V}
    {f : MethodDef S V} (hi : b.fields[i]? = some n) (hj : n.methods[j]? = some f)
    (h1 : BMap.get (lit "namespace") m = some (.str n.ident)) (h2 : BMap.get (lit "method") m = some (.str f.name)) :
    decodeCall b (.obj m) = (do
      let a ← takeArgs (.map ((m.filter (fun p => p.1 ≠ lit "namespace")).filter (fun p => p.1 ≠ lit "method")))
      let vs ← decodeArgs f.args a
      pure { ns := i, method := j, args := vs }) := by
  have hs1 := sorted_filter hs (fun p => decide (p.1 ≠ lit "namespace"))
  have t1 := (takeTag_map_iff hs (lit "namespace") _ _).2 ⟨h1, rfl⟩
  have t2 := (takeTag_map_iff hs1 (lit "method") _ _).2 ⟨(get_filter_ne _ _ (by decide)).trans h2, rfl⟩
  have o1 : outerVariant (b.fields.map (·.ident)) (.str n.ident) = .ok i :=
    (outerVariant_iff hw.1 _ _).2 ⟨_, rfl, by rw [List.getElem?_map, hi]; rfl⟩
  have o2 : innerVariant (n.methods.map (·.name)) (.str f.name) = .ok j :=
    (innerVariant_iff (hw.2 n (List.mem_of_getElem? hi)) _ _).2 (.inl ⟨_, rfl, by rw [List.getElem?_map, hj]; rfl⟩)
  unfold decodeCall decodeMethod
  simp only [bind, Except.bind, t1, o1, hi, t2, o2, hj]
  cases takeArgs (.map ((m.filter (fun p => p.1 ≠ lit "namespace")).filter (fun p => p.1 ≠ lit "method"))) with
  | error e => rfl
  | ok a =>
    simp only
    cases decodeArgs f.args a with
    | error e => rfl
    | ok vs => rfl

/-- Calls of the same function with the same arguments. -/
def SameCall (b b' : BackendDef S V) (c c' : Call V) : Prop :=
  c'.args = c.args ∧ b'.lookup c' = b.lookup c ∧ Place b.fields b'.fields c.ns c'.ns

theorem backend_simulates {b b' : BackendDef S V} (hw : WellFormed b) (hw' : WellFormed b') {st₀ st₀' : List S}
    (h0 : Extends b.fields st₀ b'.fields st₀') :
    Simulates b.service b'.service (fun st st' => Extends b.fields st b'.fields st') (SameCall b b') (NamesFunction b) where
  decode := by
    rintro v ⟨m, n, f, hs, rfl, hn, hf, h1, h2⟩
    obtain ⟨n', hn', he, hsub⟩ := extends_mem h0 n hn
    obtain ⟨i, hi⟩ := List.getElem?_of_mem hn
    obtain ⟨i', hi'⟩ := List.getElem?_of_mem hn'
    obtain ⟨j, hj⟩ := List.getElem?_of_mem hf
    obtain ⟨j', hj'⟩ := List.getElem?_of_mem (hsub.subset hf)
    show (∃ e, decodeCall b (.obj m) = .error e ∧ decodeCall b' (.obj m) = .error e) ∨
      ∃ c c', decodeCall b (.obj m) = .ok c ∧ decodeCall b' (.obj m) = .ok c' ∧ SameCall b b' c c'
    rw [decodeCall_named hw hs hi hj h1 h2, decodeCall_named hw' hs hi' hj' (by rw [he]; exact h1) h2]
    cases takeArgs (.map ((m.filter (fun p => p.1 ≠ lit "namespace")).filter (fun p => p.1 ≠ lit "method"))) with
    | error e => exact .inl ⟨e, rfl, rfl⟩
    | ok a =>
      simp only [bind, Except.bind]
      cases decodeArgs f.args a with
      | error e => exact .inl ⟨e, rfl, rfl⟩
      | ok vs =>
        refine .inr ⟨_, _, rfl, rfl, rfl, ?_, n, n', hi, hi', he⟩
        simp [BackendDef.lookup, hi, hi', hj, hj']
  isStream := by
    rintro c c' ⟨_, h, _⟩
    show isStreamCall b' c' = isStreamCall b c
    unfold isStreamCall
    rw [h]
  method := by
    rintro st st' c c' hst ⟨ha, hl, hp⟩
    obtain ⟨h1, h2⟩ := extends_place hst hw.1 hw'.1 hp
    show Extends _ (runMethod b st c).1 _ (runMethod b' st' c').1 ∧ (runMethod b' st' c').2 = (runMethod b st c).2
    unfold runMethod
    rw [hl, h1, ha]
    cases b.lookup c with
    | none => exact ⟨hst, rfl⟩
    | some f =>
      cases st[c.ns]? with
      | none => exact ⟨hst, rfl⟩
      | some s =>
        simp only
        cases f.body with
        | method run => exact ⟨h2 _, rfl⟩
        | stream run => exact ⟨hst, rfl⟩
  stream := by
    rintro st st' c c' hst ⟨ha, hl, hp⟩
    obtain ⟨h1, h2⟩ := extends_place hst hw.1 hw'.1 hp
    show Extends _ (runStream b st c).1 _ (runStream b' st' c').1 ∧ (runStream b' st' c').2 = (runStream b st c).2
    unfold runStream
    rw [hl, h1, ha]
    cases b.lookup c with
    | none => exact ⟨hst, rfl⟩
    | some f =>
      cases st[c.ns]? with
      | none => exact ⟨hst, rfl⟩
      | some s =>
        simp only
        cases f.body with
        | method run => exact ⟨hst, rfl⟩
        | stream run => exact ⟨h2 _, rfl⟩

end

end Verif.Server
