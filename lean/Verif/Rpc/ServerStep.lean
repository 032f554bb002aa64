import Verif.Spec.Server

/-!
# The step function, case by case (proof helper)
-/

namespace Verif.Server

open Verif Verif.ServerSpec

variable {σ C : Type}

/-- The cases of `step` with explicit successor states. -/
inductive Step (sv : Service σ C) (s : State σ C) : Label → State σ C → Prop
  | connect (h : s.held = true) :
      Step sv s .connect { s with conns := upd s.conns s.nconn freshConn, nconn := s.nconn + 1 }
  | other (c) (h : (s.conns c).alive = true) : Step sv s (.frame c .other) s
  | enqueue (c doc) (h : (s.conns c).alive = true) (hl : LoopAlive s) :
      Step sv s (.frame c (.text doc))
        { s with queue := s.queue ++ [(c, frameInput doc)],
                 accepted := s.accepted ++ [(c, frameInput doc)] }
  | sendFail (c doc) (h : (s.conns c).alive = true) (hl : ¬ LoopAlive s) :
      Step sv s (.frame c (.text doc)) { s with conns := upd s.conns c (s.conns c).close }
  | recvEnd (c) (h : (s.conns c).alive = true) :
      Step sv s (.recvEnd c) { s with conns := upd s.conns c (s.conns c).close }
  | takeErr (c r q) (hl : s.loop = .idle) (hq : s.queue = (c, .error r) :: q) :
      Step sv s .take
        { s with queue := q, conns := upd s.conns c ((s.conns c).send none r).1,
                 log := s.log ++ [(c, .error r)] }
  | cancelHit (c id t q) (hl : s.loop = .idle) (hq : s.queue = (c, .ok (.cancelStream id)) :: q)
      (ht : subsGet s.subs id = some t) :
      Step sv s .take
        { s with queue := q, tasks := upd s.tasks t (s.tasks t).abort,
                 subs := subsRemove s.subs id, log := s.log ++ [(c, .ok (.cancelStream id))] }
  | cancelMiss (c id q) (hl : s.loop = .idle) (hq : s.queue = (c, .ok (.cancelStream id)) :: q)
      (ht : subsGet s.subs id = none) :
      Step sv s .take { s with queue := q, log := s.log ++ [(c, .ok (.cancelStream id))] }
  | takeBad (c id v e q) (hl : s.loop = .idle) (hq : s.queue = (c, .ok (.exec id v)) :: q)
      (hd : sv.decode v = .error e) :
      Step sv s .take
        { s with queue := q,
                 conns := upd s.conns c ((s.conns c).send none (Response.mkError (some id) e)).1,
                 log := s.log ++ [(c, .ok (.exec id v))] }
  | takeStream (c id v call q) (hl : s.loop = .idle)
      (hq : s.queue = (c, .ok (.exec id v)) :: q)
      (hd : sv.decode v = .ok call) (hs : sv.isStream call = true) :
      Step sv s .take
        { s with
          queue := q
          backend := (sv.runStream s.backend call).1
          tasks := upd s.tasks s.ntask
            { conn := c, id := id, src := (sv.runStream s.backend call).2, pos := 0,
              st := .suspended }
          ntask := s.ntask + 1
          subs := subsInsert s.subs id s.ntask
          log := s.log ++ [(c, .ok (.exec id v))] }
  | takeMethod (c id v call q) (hl : s.loop = .idle)
      (hq : s.queue = (c, .ok (.exec id v)) :: q)
      (hd : sv.decode v = .ok call) (hs : sv.isStream call = false) :
      Step sv s .take { s with queue := q, loop := .busy c id call (.ok (.exec id v)) }
  | takePanic (c id v call q) (hl : s.loop = .idle)
      (hq : s.queue = (c, .ok (.exec id v)) :: q)
      (hd : sv.decode v = .ok call) (hs : sv.isStream call = true) :
      Step sv s .takePanic s.killLoop
  | methodOk (c id call i) (hl : s.loop = .busy c id call i) (h : (s.conns c).alive = true) :
      Step sv s .methodDone
        { s with
          conns := upd s.conns c
            ((s.conns c).send none (Response.mkMethod id (sv.runMethod s.backend call).2)).1
          backend := (sv.runMethod s.backend call).1
          loop := .idle
          log := s.log ++ [(c, i)] }
  | methodFail (c id call i) (hl : s.loop = .busy c id call i) (h : (s.conns c).alive = false) :
      Step sv s .methodDone
        (State.killLoop
          { s with
            backend := (sv.runMethod s.backend call).1
            loop := .idle
            log := s.log ++ [(c, i)] })
  | methodPanic (c id call i) (hl : s.loop = .busy c id call i) :
      Step sv s .methodPanic s.killLoop
  | poll (t) (h : (s.tasks t).st = .suspended) :
      Step sv s (.poll t) { s with tasks := upd s.tasks t { s.tasks t with st := .running } }
  | itemEnd (t) (h : (s.tasks t).st = .running ∨ (s.tasks t).st = .runningAborted)
      (hn : (s.tasks t).src (s.tasks t).pos = none) :
      Step sv s (.item t) { s with tasks := upd s.tasks t { s.tasks t with st := .done } }
  | itemSend (t x) (h : (s.tasks t).st = .running ∨ (s.tasks t).st = .runningAborted)
      (hn : (s.tasks t).src (s.tasks t).pos = some x) (ha : (s.conns (s.tasks t).conn).alive = true) :
      Step sv s (.item t)
        { s with
          conns := upd s.conns (s.tasks t).conn
            ((s.conns (s.tasks t).conn).send (some t) (Response.mkStream (s.tasks t).id x)).1
          tasks := upd s.tasks t { s.tasks t with pos := (s.tasks t).pos + 1 } }
  | itemFail (t x) (h : (s.tasks t).st = .running ∨ (s.tasks t).st = .runningAborted)
      (hn : (s.tasks t).src (s.tasks t).pos = some x)
      (ha : (s.conns (s.tasks t).conn).alive = false) :
      Step sv s (.item t)
        { s with
          tasks := upd s.tasks t { s.tasks t with pos := (s.tasks t).pos + 1, st := .done } }
  | itemPanic (t) (h : (s.tasks t).st = .running ∨ (s.tasks t).st = .runningAborted) :
      Step sv s (.itemPanic t) { s with tasks := upd s.tasks t { s.tasks t with st := .done } }
  | pending (t) (h : (s.tasks t).st = .running) :
      Step sv s (.pending t) { s with tasks := upd s.tasks t { s.tasks t with st := .suspended } }
  | pendingAborted (t) (h : (s.tasks t).st = .runningAborted) :
      Step sv s (.pending t) { s with tasks := upd s.tasks t { s.tasks t with st := .cancelled } }
  | flush (c r rs) (h : (s.conns c).alive = true) (hc : (s.conns c).chan = r :: rs) :
      Step sv s (.flush c)
        { s with conns := upd s.conns c
                  { s.conns c with chan := rs, written := (s.conns c).written ++ [r] } }
  | flushFail (c r rs) (h : (s.conns c).alive = true) (hc : (s.conns c).chan = r :: rs) :
      Step sv s (.flushFail c) { s with conns := upd s.conns c (s.conns c).close }
  | dropProxy (h : s.held = true) : Step sv s .dropProxy { s with held := false }
  | loopExit (hl : s.loop = .idle) (hq : s.queue = []) (hh : s.held = false)
      (hc : ∀ c, c < s.nconn → (s.conns c).alive = false) : Step sv s .loopExit s.killLoop

theorem upd_same {α : Type} (f : Nat → α) (i : Nat) : upd f i (f i) = f := by
  funext j; unfold upd; split <;> simp_all

theorem step_iff_dead (s : State σ C) : ¬ LoopAlive s ↔ s.loop = .dead := by
  unfold LoopAlive; split <;> simp_all

theorem step_Step {sv : Service σ C} {s s' : State σ C} {l : Label} (h : step sv s l = some s') :
    Step sv s l s' := by
  cases l with
  | connect =>
    simp only [step] at h
    split at h <;> simp at h
    subst h; exact .connect ‹_›
  | frame c f =>
    simp only [step] at h
    split at h
    · rename_i ha
      split at h
      · simp at h; subst h; exact .other c ha
      · rename_i doc
        unfold State.proxySend at h
        by_cases hl : LoopAlive s
        · split at h
          · rename_i h'
            split at h' <;> simp_all [LoopAlive]
          · rename_i s1 h'
            split at h' <;> simp at h' h
            subst h; subst h'; exact .enqueue c doc ha hl
        · rw [(step_iff_dead s).1 hl] at h
          simp [State.setConn] at h
          subst h; exact .sendFail c doc ha hl
    · simp at h
  | recvEnd c =>
    simp only [step] at h
    split at h <;> simp [State.setConn] at h
    subst h; exact .recvEnd c ‹_›
  | take =>
    simp only [step] at h
    split at h
    · rename_i c inp q hl hq
      simp only [Option.some.injEq] at h
      subst h
      unfold takeStep
      simp only
      split
      · exact .takeErr c _ q hl hq
      · rename_i id
        split
        · exact .cancelHit c id _ q hl hq ‹_›
        · exact .cancelMiss c id q hl hq ‹_›
      · rename_i id v
        split
        · exact .takeBad c id v _ q hl hq ‹_›
        · split
          · exact .takeStream c id v _ q hl hq ‹_› ‹_›
          · rename_i hs
            exact .takeMethod c id v _ q hl hq ‹_› (Bool.eq_false_iff.2 hs)
    · simp at h
  | takePanic =>
    simp only [step] at h
    split at h
    · rename_i c id v q hl hq
      split at h
      · split at h
        · simp at h; subst h
          exact .takePanic c id v _ q hl hq ‹_› ‹_›
        · simp at h
      · simp at h
    · simp at h
  | methodDone =>
    simp only [step] at h
    split at h
    · rename_i c id call inp hl
      unfold Conn.send at h
      cases ha : (s.conns c).alive with
      | true =>
        simp only [ha, if_true, Option.some.injEq] at h
        subst h
        have := Step.methodOk (sv := sv) c id call inp hl ha
        simpa [State.setConn, Conn.send, ha] using this
      | false =>
        simp [ha, State.setConn, upd_same] at h
        subst h
        exact .methodFail c id call inp hl ha
    · simp at h
  | methodPanic =>
    simp only [step] at h
    split at h
    · simp at h; subst h
      exact .methodPanic _ _ _ _ ‹_›
    · simp at h
  | poll t =>
    simp only [step] at h
    split at h
    · simp [State.setTask] at h; subst h; exact .poll t ‹_›
    · simp at h
  | item t =>
    simp only [step] at h
    have key : ((s.tasks t).st = .running ∨ (s.tasks t).st = .runningAborted) := by
      split at h <;> simp_all
    have h2 : (match (s.tasks t).src (s.tasks t).pos with
        | none => some (s.setTask t { s.tasks t with st := .done })
        | some x =>
          if ((s.conns (s.tasks t).conn).send (some t) (Response.mkStream (s.tasks t).id x)).2 then
            some ((s.setConn (s.tasks t).conn ((s.conns (s.tasks t).conn).send (some t)
              (Response.mkStream (s.tasks t).id x)).1).setTask t
                { s.tasks t with pos := (s.tasks t).pos + 1 })
          else some ((s.setConn (s.tasks t).conn ((s.conns (s.tasks t).conn).send (some t)
              (Response.mkStream (s.tasks t).id x)).1).setTask t
                { s.tasks t with pos := (s.tasks t).pos + 1, st := .done })) = some s' := by
      split at h
      · exact h
      · exact h
      · simp at h
    clear h
    split at h2
    · simp [State.setTask] at h2; subst h2; exact .itemEnd t key ‹_›
    · rename_i x hx
      cases ha : (s.conns (s.tasks t).conn).alive with
      | true =>
        simp [State.setTask, State.setConn] at h2
        have hs : ((s.conns (s.tasks t).conn).send (some t) (Response.mkStream (s.tasks t).id x)).2
            = true := by simp [Conn.send, ha]
        rw [if_pos hs] at h2
        simp at h2
        subst h2
        exact .itemSend t x key hx ha
      | false =>
        have hs : ((s.conns (s.tasks t).conn).send (some t) (Response.mkStream (s.tasks t).id x))
            = (s.conns (s.tasks t).conn, false) := by simp [Conn.send, ha]
        rw [hs] at h2
        simp [State.setTask, State.setConn, upd_same] at h2
        subst h2
        exact .itemFail t x key hx ha
  | itemPanic t =>
    simp only [step] at h
    split at h
    · simp [State.setTask] at h; subst h; exact .itemPanic t (.inl ‹_›)
    · simp [State.setTask] at h; subst h; exact .itemPanic t (.inr ‹_›)
    · simp at h
  | pending t =>
    simp only [step] at h
    split at h
    · simp [State.setTask] at h; subst h; exact .pending t ‹_›
    · simp [State.setTask] at h; subst h; exact .pendingAborted t ‹_›
    · simp at h
  | flush c =>
    simp only [step] at h
    split at h
    · split at h
      · simp at h
      · simp [State.setConn] at h; subst h; exact .flush c _ _ ‹_› ‹_›
    · simp at h
  | flushFail c =>
    simp only [step] at h
    split at h
    · split at h
      · simp at h
      · simp [State.setConn] at h; subst h; exact .flushFail c _ _ ‹_› ‹_›
    · simp at h
  | dropProxy =>
    simp only [step] at h
    split at h <;> simp at h
    subst h; exact .dropProxy ‹_›
  | loopExit =>
    simp only [step] at h
    split at h
    · rename_i hl hq
      split at h
      · rename_i hc
        simp at h hc; subst h
        exact .loopExit hl hq hc.1 hc.2
      · simp at h
    · simp at h

end Verif.Server
