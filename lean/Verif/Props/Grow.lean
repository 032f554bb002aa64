import Verif.Rpc.Grow
import Verif.Rpc.Demo
import Verif.System.Grow

/-!
# Backends that grow (C80)
-/

namespace Verif.Props
open Verif Verif.Server Verif.DispatchSpec Verif.WireSpec

variable {S V : Type}

theorem good_of_asks {b : BackendDef S V} {ls : List Label}
    (hls : ∀ c doc, Label.frame c (.text (some doc)) ∈ ls → Asks b doc) : ∀ l ∈ ls, GoodLabel (NamesFunction b) l := by
  rintro l hl c doc rfl
  cases doc with
  | none => intro id v e; cases e
  | some doc => exact System.asks_good (hls c doc hl)

/-- **C80**. For every backend and every backend with more functions and more namespaces, for every schedule of the server —
connections, frames, cancellations, panics, sockets that break, in any order — in which the calls name functions of the
first backend: the schedule is possible with both or with neither, and afterwards the two servers cannot be told apart.
Every client has got the same responses in the same order, and the namespaces both have are in the same states. -/
theorem C80_same_run {b b' : BackendDef S V} (hb : WellFormed b) (hb' : WellFormed b') {st st' : List S}
    (hx : Extends b.fields st b'.fields st') (ls : List Label)
    (hls : ∀ c doc, Label.frame c (.text (some doc)) ∈ ls → Asks b doc) :
    (run b.service (init st) ls = none ↔ run b'.service (init st') ls = none) ∧
      ∀ s s', run b.service (init st) ls = some s → run b'.service (init st') ls = some s' →
        Alike s s' ∧ Extends b.fields s.backend b'.fields s'.backend := by
  have h0 : StRel (fun st st' => Extends b.fields st b'.fields st') (SameCall b b') (NamesFunction b)
      (init st) (init st') := .mk (init st) hx .idle (fun x hx => by cases hx)
  rcases run_alike (backend_simulates hb hb' hx) ls h0 (good_of_asks hls) with ⟨h1, h2⟩ | ⟨s, s', h1, h2, h3⟩
  · rw [h1, h2]
    exact ⟨Iff.rfl, fun s s' h => by cases h⟩
  · rw [h1, h2]
    refine ⟨by simp, ?_⟩
    intro t t' e e'
    cases e; cases e'
    exact stRel_alike h3

/-- In particular the frames written to a client are the same. -/
theorem C80_same_frames {b b' : BackendDef S V} (hb : WellFormed b) (hb' : WellFormed b') {st st' : List S}
    (hx : Extends b.fields st b'.fields st') (ls : List Label)
    (hls : ∀ c doc, Label.frame c (.text (some doc)) ∈ ls → Asks b doc) {s s' : State (List S) (Call V)}
    (hs : run b.service (init st) ls = some s) (hs' : run b'.service (init st') ls = some s') (c : Nat) :
    (s'.conns c).written = (s.conns c).written := by
  rw [((C80_same_run hb hb' hx ls hls).2 s s' hs hs').1.conns]

/-- The same for whole projects: any number of generated clients of the first backend, with sockets that open, close and fail in
any way, and foreign clients. What the promises and subscriptions of the clients get is the same. -/
theorem C80_clients {b b' : BackendDef S V} (hb : WellFormed b) (hb' : WellFormed b') {st st' : List S}
    (hx : Extends b.fields st b'.fields st') (ls : List System.Label) (hls : ∀ l ∈ ls, l.asks b) :
    (System.run b.service (System.init st) ls = none ↔ System.run b'.service (System.init st') ls = none) ∧
      ∀ s s', System.run b.service (System.init st) ls = some s → System.run b'.service (System.init st') ls = some s' →
        System.AlikeSystems s s' ∧ Extends b.fields s.server.backend b'.fields s'.server.backend := by
  have h0 : StRel (fun st st' => Extends b.fields st b'.fields st') (SameCall b b') (NamesFunction b)
      (init st) (init st') := .mk (init st) hx .idle (fun x hx => by cases hx)
  rcases System.run_both (backend_simulates hb hb' hx) (st := st) ls (s' := System.init st') ⟨[], rfl⟩ (fun i m hm => by cases hm)
    (.mk (System.init st) h0) hls with ⟨h1, h2⟩ | ⟨s, s', h1, h2, h3⟩
  · rw [h1, h2]
    exact ⟨Iff.rfl, fun s s' h => by cases h⟩
  · rw [h1, h2]
    refine ⟨by simp, ?_⟩
    intro t t' e e'
    cases e; cases e'
    obtain ⟨s, h3⟩ := h3
    obtain ⟨h4, h5⟩ := stRel_alike h3
    exact ⟨⟨rfl, rfl, rfl, rfl, h4⟩, h5⟩

/-! ## A backend with more functions -/

/-- A function that is new: `async fn reset(&mut self, n: usize) -> usize`. -/
def exReset : MethodDef Nat Nat where
  name := lit "reset"
  args := [Json.asUsize]
  body := .method fun _ a => match a with
    | [n] => (n, .ok (.num (.int 7)))
    | _ => (0, .error .custom)

/-- The namespace of the demo backend with the new function in front. -/
def exCounter2 : NamespaceDef Nat Nat := { Demo.counter with methods := exReset :: Demo.counter.methods }

/-- A namespace that is new. -/
def exFresh : NamespaceDef Nat Nat where
  ident := lit "Fresh"
  nsName := lit "Fresh"
  methods := [exReset]

def exApi2 : BackendDef Nat Nat := ⟨[exFresh, exCounter2]⟩

theorem exApi_wf : WellFormed Demo.api := by
  refine ⟨by decide, ?_⟩
  intro n hn
  rcases List.mem_singleton.1 hn with rfl
  decide

theorem exApi2_wf : WellFormed exApi2 := by
  refine ⟨by decide, ?_⟩
  intro n hn
  rcases List.mem_cons.1 hn with rfl | hn
  · decide
  · rcases List.mem_singleton.1 hn with rfl
    decide

theorem exApi2_extends : Extends Demo.api.fields [0] exApi2.fields [5, 0] :=
  .new exFresh 5 (.same 0 rfl (List.sublist_cons_self _ _) .nil)

theorem exAsks_call (id n : Nat) : Asks Demo.api (Demo.callDoc "add" id n) := by
  intro id' v h
  cases (decode_iff _ _).1 h with
  | @exec kvs _ m hid hs hg hno =>
    refine ⟨m, Demo.counter, Demo.counter.methods[0], rfl, List.mem_singleton.2 rfl, List.mem_cons_self, ?_, ?_⟩
    · rw [hg _ (by decide)]; rfl
    · rw [hg _ (by decide)]; rfl

def exGrowLs : List Label := [.connect, Demo.callF 0 "add" 3 4, .take, .methodDone, Demo.callF 0 "add" 4 5, .take, .methodDone,
  .flush 0, .flush 0]

theorem exGrow_asks : ∀ c doc, Label.frame c (.text (some doc)) ∈ exGrowLs → Asks Demo.api doc := by
  intro c doc h
  simp only [exGrowLs, Demo.callF, List.mem_cons, Label.frame.injEq, Frame.text.injEq, Option.some.injEq, reduceCtorEq, false_or,
    or_false, List.not_mem_nil] at h
  rcases h with ⟨_, rfl⟩ | ⟨_, rfl⟩
  · exact exAsks_call 3 4
  · exact exAsks_call 4 5

/-- Both servers answer 4 and 9. -/
example : ((run Demo.api.service (init [0]) exGrowLs).map fun s => (s.conns 0).written) =
      some [.method 3 (.num (.int 4)), .method 4 (.num (.int 9))] ∧
    ((run exApi2.service (init [5, 0]) exGrowLs).map fun s => (s.conns 0).written) =
      some [.method 3 (.num (.int 4)), .method 4 (.num (.int 9))] := ⟨rfl, rfl⟩

example {s s' : State (List Nat) (Call Nat)} (hs : run Demo.api.service (init [0]) exGrowLs = some s)
    (hs' : run exApi2.service (init [5, 0]) exGrowLs = some s') : Alike s s' ∧ Extends Demo.api.fields s.backend exApi2.fields s'.backend :=
  (C80_same_run exApi_wf exApi2_wf exApi2_extends exGrowLs exGrow_asks).2 s s' hs hs'

/-- A generated client calls `add(4)`. -/
def exGrowSys : List System.Label := [.client 0 (.request (lit "Counter") (lit "add") [.num (.int 4)]), .accept 0 0, .opened 0,
  .deliver 0, .server .take, .server .methodDone, .server (.flush 0), .respond 0, .client 0 .visit, .client 0 .visit]

theorem exGrowSys_asks : ∀ l ∈ exGrowSys, l.asks Demo.api := by
  intro l hl
  simp only [exGrowSys, List.mem_cons, List.not_mem_nil, or_false] at hl
  rcases hl with rfl | rfl | rfl | rfl | rfl | rfl | rfl | rfl | rfl | rfl
  · exact ⟨Demo.counter, List.mem_singleton.2 rfl, rfl, Demo.counter.methods[0], List.mem_cons_self, rfl⟩
  all_goals simp only [System.Label.asks]

/-- The promise is resolved with 4, by both servers. -/
example : ((System.run Demo.api.service (System.init [0]) exGrowSys).map fun s => ((s.clients 0).subs 0).got) = some [.num (.int 4)] ∧
    ((System.run exApi2.service (System.init [5, 0]) exGrowSys).map fun s => ((s.clients 0).subs 0).got) = some [.num (.int 4)] :=
  ⟨rfl, rfl⟩

example {s s' : System.State (List Nat) (Call Nat)} (hs : System.run Demo.api.service (System.init [0]) exGrowSys = some s)
    (hs' : System.run exApi2.service (System.init [5, 0]) exGrowSys = some s') : System.AlikeSystems s s' :=
  ((C80_clients exApi_wf exApi2_wf exApi2_extends exGrowSys exGrowSys_asks).2 s s' hs hs').1

/-- A call of the first function by its number: `{exec: {id, method: 0, namespace, args: [n]}}`. -/
def exNumberDoc : Json :=
  .obj [(lit "exec", .obj [(lit "id", .num (.int 3)), (lit "method", .num (.int 0)),
    (lit "namespace", .str (lit "Counter")), (lit "args", .arr [.num (.int 4)])])]

/-- The names are needed. The decoder also takes the number of a function for its name, and a new function changes the numbers:
the request that was a call of `add` is a call of `reset`. -/
theorem C80_names_needed :
    ∃ (b b' : BackendDef Nat Nat) (st st' : List Nat) (doc : Json) (s s' : State (List Nat) (Call Nat)),
      WellFormed b ∧ WellFormed b' ∧ Extends b.fields st b'.fields st' ∧
      run b.service (init st) [.connect, .frame 0 (.text (some doc)), .take, .methodDone, .flush 0] = some s ∧
      run b'.service (init st') [.connect, .frame 0 (.text (some doc)), .take, .methodDone, .flush 0] = some s' ∧
      (s.conns 0).written = [.method 3 (.num (.int 4))] ∧ (s'.conns 0).written = [.method 3 (.num (.int 7))] :=
  ⟨Demo.api, exApi2, [0], [5, 0], exNumberDoc, _, _, exApi_wf, exApi2_wf, exApi2_extends, rfl, rfl, rfl, rfl⟩

end Verif.Props
