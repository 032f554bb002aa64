import Verif.Rpc.DispatchLemmas
import Verif.Rpc.ServerInv3
import Verif.Rpc.Demo

/-!
# Message and dispatch properties C23 - C28

Specifications: `Verif/Spec/Wire.lean` (message shapes), `Verif/Spec/Dispatch.lean` (what a call
names), `Verif/Spec/Server.lean` (`exec1`: one request executed alone).
-/

namespace Verif.Props
open Verif Verif.WireSpec Verif.DispatchSpec Verif.Server Verif.ServerSpec

variable {S V : Type}

/-! ## C23 -/

private theorem lastOf_cons_ne {k a : Str} {v : Json} {l : List (Str × Json)} (h : a ≠ k) :
    lastOf k ((a, v) :: l) = lastOf k l := by
  simp [lastOf, List.filter_cons, h]

private theorem get_cons_ne {k a : Str} {v : Json} {l : List (Str × Json)} (h : a ≠ k) :
    BMap.get k ((a, v) :: l) = BMap.get k l := by
  simp [BMap.get, h]

/-- C23. The message the client builds for a call is decoded into an `Exec` with the same id whose
value has exactly the members `namespace`, `method` and `args` of the call. -/
theorem C23_client_message (id : Nat) (ns method : Str) (args : List Json) (hid : id < 2 ^ 64) :
    Request.decode (clientMessage id ns method args) =
      .ok (.exec id (callValue ns method (args.map Json.toValue))) := by
  rw [decode_iff]
  refine .exec ⟨_, rfl, rfl, hid⟩ (callValue_sorted _ _ _) ?_ rfl
  intro k hk
  by_cases h1 : k = lit "args"
  · subst h1
    show some (Json.arr (args.map Json.toValue)) = some (Json.toValue (.arr args))
    simp only [Json.toValue, Json.toValues_map]
  · by_cases h2 : k = lit "method"
    · subst h2; rfl
    · by_cases h3 : k = lit "namespace"
      · subst h3; rfl
      · rw [lastOf_cons_ne (Ne.symm hk), lastOf_cons_ne (Ne.symm h2), lastOf_cons_ne (Ne.symm h3),
          lastOf_cons_ne (Ne.symm h1), get_cons_ne (Ne.symm h1), get_cons_ne (Ne.symm h2),
          get_cons_ne (Ne.symm h3)]
        rfl

/-- C23, read back: namespace, method and arguments of the decoded value are those of the call. -/
theorem C23_client_message_members (id : Nat) (ns method : Str) (args : List Json)
    (hid : id < 2 ^ 64) :
    ∃ m, Request.decode (clientMessage id ns method args) = .ok (.exec id (.obj m)) ∧
      m.length = 3 ∧
      BMap.get (lit "namespace") m = some (.str ns) ∧
      BMap.get (lit "method") m = some (.str method) ∧
      BMap.get (lit "args") m = some (.arr (args.map Json.toValue)) :=
  ⟨_, C23_client_message id ns method args hid, rfl, rfl, rfl, rfl⟩

example : Request.decode (clientMessage 7 (lit "Counter") (lit "add") [.num (.int 5)]) =
    .ok (.exec 7 (callValue (lit "Counter") (lit "add") [.num (.int 5)])) := rfl

/-! ## C24 -/

/-- C24. A document is accepted as a request iff it has one of the documented shapes, and the request
is the one the shape says. -/
theorem C24_accepted_shapes (doc : Json) (r : Request) :
    Request.decode doc = .ok r ↔ IsRequest doc r := decode_iff doc r

/-- C24, everything else is rejected. -/
theorem C24_rejected (doc : Json) :
    (∃ e, Request.decode doc = .error e) ↔ ¬ ∃ r, IsRequest doc r := by
  constructor
  · rintro ⟨e, he⟩ ⟨r, hr⟩
    rw [← decode_iff, he] at hr; cases hr
  · intro h
    cases hd : Request.decode doc with
    | error e => exact ⟨e, rfl⟩
    | ok r => exact absurd ⟨r, (decode_iff _ _).1 hd⟩ h

/-- Repeated members: the last one wins, nested objects too. -/
example : Request.decode (.obj [(lit "exec", .obj [(lit "a", .null), (lit "id", .num (.int 1)),
    (lit "a", .bool true)])]) = .ok (.exec 1 (.obj [(lit "a", .bool true)])) := rfl
/-- Two ids are an error. -/
example : Request.decode (.obj [(lit "exec", .obj [(lit "id", .num (.int 1)),
    (lit "id", .num (.int 1))])]) = .error .duplicateField := rfl

/-! ## C25 -/

/-- C25. Executing a request value (a map) runs method `j` of field `i` with arguments `vs` iff the
value names that method and carries those arguments. -/
theorem C25_dispatch {b : BackendDef S V} (hw : WellFormed b) {m : BMap Json}
    (hs : BMap.Sorted m) (i j : Nat) (vs : List V) :
    b.service.decode (.obj m) = .ok ⟨i, j, vs⟩ ↔ IsCall b m i j vs :=
  decodeCall_iff hw hs ⟨i, j, vs⟩

/-- C25 for values that are not maps. Requests from clients always carry maps; Rust code that talks to a
`BackendProxy` can put any value into a request. An array is a call iff it is the namespace, the method and the arguments;
nothing else is. -/
theorem C25_dispatch_other {b : BackendDef S V} (hw : WellFormed b) (i j : Nat) (vs : List V) :
    (∀ l : List Json, b.service.decode (.arr l) = .ok ⟨i, j, vs⟩ ↔ ∃ n md tag a, b.fields[i]? = some n ∧
      l = [.str n.ident, tag, a] ∧ TagNames n tag j md ∧ ArgsFit md.args a vs) ∧
    (∀ v : Json, (∀ m, v ≠ .obj m) → (∀ l, v ≠ .arr l) → b.service.decode v = .error .invalidType) := by
  refine ⟨fun l => decodeCall_arr_iff hw l ⟨i, j, vs⟩, fun v h1 h2 => ?_⟩
  show decodeCall b v = _
  cases v with
  | obj m => exact absurd rfl (h1 m)
  | arr l => exact absurd rfl (h2 l)
  | null => rfl
  | bool _ => rfl
  | num _ => rfl
  | str _ => rfl

/-- Cases: a call in array form, and one with an element too many. -/
example : Demo.api.service.decode (.arr [.str (lit "Counter"), .str (lit "add"), .arr [.num (.int 5)]]) = .ok ⟨0, 0, [5]⟩ ∧
    ∃ e, Demo.api.service.decode (.arr [.str (lit "Counter"), .str (lit "add"), .arr [.num (.int 5)], .null]) = .error e :=
  ⟨rfl, _, rfl⟩

/-- C25 for methods: the named method runs on its own namespace's state, with the decoded arguments
in order; its result is the reply; the other namespaces are untouched. -/
theorem C25_method {b : BackendDef S V} (hw : WellFormed b) {i j : Nat}
    {n : NamespaceDef S V} {m : MethodDef S V} {run : S → List V → S × Except SerdeErr Json}
    (hm : HasMethod b i n j m) (hbody : m.body = .method run)
    {js : List Json} {vs : List V} (hargs : m.args ≠ []) (hd : ArgsDecode m.args js vs)
    (st : List S) {s : S} (hst : st[i]? = some s) (id : Nat) :
    exec1 b.service st (.ok (.exec id (callValue n.ident m.name js))) =
      (st.set i (run s vs).1,
        some (match (run s vs).2 with
          | .ok data => .method id data
          | .error e => .error (some id) e)) ∧
    (st.set i (run s vs).1)[i]? = some (run s vs).1 ∧
    ∀ k, k ≠ i → (st.set i (run s vs).1)[k]? = st[k]? := by
  have hdec : b.service.decode (callValue n.ident m.name js) = .ok ⟨i, j, vs⟩ :=
    (C25_dispatch hw (callValue_sorted _ _ _) i j vs).2
      ⟨n, m, _, _, hm.1, rfl, rfl, ⟨hm.2, .inl rfl⟩, rfl, .inr ⟨hargs, _, rfl, hd⟩⟩
  have hlook : b.lookup (⟨i, j, vs⟩ : Call V) = some m := by
    simp [BackendDef.lookup, hm.1, hm.2]
  have hstr : b.service.isStream ⟨i, j, vs⟩ = false := by
    simp [BackendDef.service, isStreamCall, hlook, hbody]
  refine ⟨?_, ?_, ?_⟩
  · rw [exec1_method hdec hstr]
    have hrun : b.service.runMethod st ⟨i, j, vs⟩ = (st.set i (run s vs).1, (run s vs).2) := by
      simp [BackendDef.service, runMethod, hlook, hst, hbody]
    rw [hrun]
    cases (run s vs).2 <;> rfl
  · have := (List.getElem?_eq_some_iff.1 hst).1
    simp [this]
  · intro k hk; rw [List.getElem?_set_ne (Ne.symm hk)]

/-- C25 for streams. -/
theorem C25_stream {b : BackendDef S V} (hw : WellFormed b) {i j : Nat}
    {n : NamespaceDef S V} {m : MethodDef S V}
    {run : S → List V → S × (Nat → Option (Except SerdeErr Json))}
    (hm : HasMethod b i n j m) (hbody : m.body = .stream run)
    {js : List Json} {vs : List V} (hargs : m.args ≠ []) (hd : ArgsDecode m.args js vs)
    (st : List S) {s : S} (hst : st[i]? = some s) (c id : Nat) :
    exec1 b.service st (.ok (.exec id (callValue n.ident m.name js))) =
      (st.set i (run s vs).1, none) ∧
    starts b.service st c (.ok (.exec id (callValue n.ident m.name js))) =
      some ⟨c, id, (run s vs).2⟩ := by
  have hdec : b.service.decode (callValue n.ident m.name js) = .ok ⟨i, j, vs⟩ :=
    (C25_dispatch hw (callValue_sorted _ _ _) i j vs).2
      ⟨n, m, _, _, hm.1, rfl, rfl, ⟨hm.2, .inl rfl⟩, rfl, .inr ⟨hargs, _, rfl, hd⟩⟩
  have hlook : b.lookup (⟨i, j, vs⟩ : Call V) = some m := by
    simp [BackendDef.lookup, hm.1, hm.2]
  have hstr : b.service.isStream ⟨i, j, vs⟩ = true := by
    simp [BackendDef.service, isStreamCall, hlook, hbody]
  have hrun : b.service.runStream st ⟨i, j, vs⟩ = (st.set i (run s vs).1, (run s vs).2) := by
    simp [BackendDef.service, runStream, hlook, hst, hbody]
  exact ⟨by simp [exec1, hdec, hstr, hrun], by simp [starts, hdec, hstr, hrun]⟩

/-- Non-vacuity: the hypotheses of C25 hold of the demo backend. -/
example : WellFormed Demo.api ∧ ∃ m run,
    HasMethod Demo.api 0 Demo.counter 0 m ∧ m.body = .method run ∧ m.args ≠ [] ∧
    ArgsDecode m.args [.num (.int 5)] [5] := by
  refine ⟨⟨by decide, ?_⟩, _, _, ⟨rfl, rfl⟩, rfl, by simp, .cons rfl .nil⟩
  intro n hn
  simp only [Demo.api, List.mem_singleton] at hn
  subst hn
  decide

/-! ## C26 -/

/-- C26. A request whose value names no method of the backend with fitting arguments is answered by
exactly one error with its id; backend, subscriptions and other connections do not change. -/
theorem C26_bad_call {b : BackendDef S V} (hw : WellFormed b) {m : BMap Json} (hs : BMap.Sorted m)
    (hbad : ¬ ∃ i j vs, IsCall b m i j vs)
    {s s₁ : State (List S) (Call V)} {c id : Nat} {q : List (Nat × Input)}
    (hq : s.queue = (c, .ok (.exec id (.obj m))) :: q)
    (h : step b.service s .take = some s₁) :
    ∃ e, s₁.backend = s.backend ∧ s₁.subs = s.subs ∧ s₁.tasks = s.tasks ∧ s₁.loop = .idle ∧
      (∀ c', c' ≠ c → s₁.conns c' = s.conns c') ∧
      (s₁.conns c).produced = (s.conns c).produced ++
        (if (s.conns c).alive then [(none, .error (some id) e)] else []) := by
  obtain ⟨e, he⟩ : ∃ e, b.service.decode (.obj m) = .error e := by
    cases hd : b.service.decode (.obj m) with
    | error e => exact ⟨e, rfl⟩
    | ok call => exact absurd ⟨_, _, _, (C25_dispatch hw hs _ _ _).1 hd⟩ hbad
  have hi : s.loop = .idle := by
    cases hl : s.loop with
    | idle => rfl
    | busy => simp [step, hl] at h
    | dead => simp [step, hl] at h
  simp only [step, hi, hq, takeStep, he, Option.some.injEq] at h
  refine ⟨e, ?_⟩
  rw [← h]
  refine ⟨rfl, rfl, rfl, rfl, ?_, ?_⟩
  · intro c' hc'; simp [State.reply, State.setConn, upd_ne _ _ hc']
  · simp only [State.reply, State.setConn, upd_self, Conn.send_produced, Response.mkError]
    split <;> simp

/-- C26: the five ways to be bad. -/
theorem C26_bad_reasons {b : BackendDef S V} (m : BMap Json) :
    -- unknown (or missing, or not textual) namespace
    ((∀ n ∈ b.fields, BMap.get (lit "namespace") m ≠ some (.str n.ident)) →
      ¬ ∃ i j vs, IsCall b m i j vs) ∧
    -- unknown method
    ((∀ n ∈ b.fields, BMap.get (lit "namespace") m = some (.str n.ident) →
        ∀ j md tag, BMap.get (lit "method") m = some tag → ¬ TagNames n tag j md) →
      ¬ ∃ i j vs, IsCall b m i j vs) ∧
    -- missing arguments
    (BMap.get (lit "args") m = none → ¬ ∃ i j vs, IsCall b m i j vs) ∧
    -- wrong number of arguments
    ((∀ n ∈ b.fields, ∀ md ∈ n.methods, md.args ≠ [] ∧
        ∀ js, BMap.get (lit "args") m = some (.arr js) → js.length ≠ md.args.length) →
      ¬ ∃ i j vs, IsCall b m i j vs) ∧
    -- an argument of the wrong type
    ((∀ n ∈ b.fields, ∀ md ∈ n.methods, md.args ≠ [] ∧
        ∀ js vs, BMap.get (lit "args") m = some (.arr js) → ¬ ArgsDecode md.args js vs) →
      ¬ ∃ i j vs, IsCall b m i j vs) := by
  have hlen : ∀ (ds : List (Json → Option V)) js vs, ArgsDecode ds js vs → js.length = ds.length := by
    intro ds js vs h
    induction h with
    | nil => rfl
    | cons _ _ ih => simp [ih]
  refine ⟨?_, ?_, ?_, ?_, ?_⟩
  · rintro h ⟨i, j, vs, n, md, tag, a, h1, h2, _⟩
    exact h n (List.mem_of_getElem? h1) h2
  · rintro h ⟨i, j, vs, n, md, tag, a, h1, h2, h3, h4, _⟩
    exact h n (List.mem_of_getElem? h1) h2 j md tag h3 h4
  · rintro h ⟨i, j, vs, n, md, tag, a, h1, h2, h3, h4, h5, _⟩
    rw [h] at h5; cases h5
  · rintro h ⟨i, j, vs, n, md, tag, a, h1, h2, h3, h4, h5, h6⟩
    obtain ⟨h7, h8⟩ := h n (List.mem_of_getElem? h1) md (List.mem_of_getElem? h4.1)
    rcases h6 with ⟨h6, _⟩ | ⟨_, js, rfl, h6⟩
    · exact h7 h6
    · exact h8 js h5 (hlen _ _ _ h6)
  · rintro h ⟨i, j, vs, n, md, tag, a, h1, h2, h3, h4, h5, h6⟩
    obtain ⟨h7, h8⟩ := h n (List.mem_of_getElem? h1) md (List.mem_of_getElem? h4.1)
    rcases h6 with ⟨h6, _⟩ | ⟨_, js, rfl, h6⟩
    · exact h7 h6
    · exact h8 js vs h5 h6

/-- Non-vacuity of C26: an unknown method, queued in a reachable state. -/
example : ∃ s s₁, run Demo.sv Demo.init [.connect, Demo.callF 0 "sub" 7 5] = some s ∧
    s.queue = [(0, .ok (.exec 7 (callValue (lit "Counter") (lit "sub") [.num (.int 5)])))] ∧
    step Demo.sv s .take = some s₁ ∧
    (s₁.conns 0).produced = [(none, .error (some 7) .unknownVariant)] :=
  ⟨_, _, rfl, rfl, rfl, rfl⟩

/-! ## C27 -/

/-- The full statement of C27: for every namespace and method of the backend, the message the stub
sends (namespace NAME, method name, argument list) for arguments that decode is a call of exactly that
method with those arguments. -/
def C27_statement (b : BackendDef S V) : Prop :=
  ∀ i n j m js vs, HasMethod b i n j m → ArgsDecode m.args js vs →
    b.service.decode (callValue n.nsName m.name js) = .ok ⟨i, j, vs⟩

/-- A backend with a method without parameters. -/
def C27_unitBackend : BackendDef Unit Unit :=
  ⟨[{ ident := lit "Ns", nsName := lit "Ns",
      methods := [{ name := lit "ping", args := [], body := .method fun s _ => (s, .ok .null) }] }]⟩

/-- A backend with a renamed namespace (`#[namespace(name = "Public")] struct Ns`). -/
def C27_renamedBackend : BackendDef Unit Unit :=
  ⟨[{ ident := lit "Ns", nsName := lit "Public",
      methods := [{ name := lit "set", args := [fun _ => some ()],
                    body := .method fun s _ => (s, .ok .null) }] }]⟩

/-- C27 is false: methods without parameters cannot be called (the stub sends `args: []`, the server
wants `null`), and methods of renamed namespaces cannot be called (the stub sends the new name, the
server matches the type name). -/
theorem C27_violated :
    ¬ C27_statement C27_unitBackend ∧ ¬ C27_statement C27_renamedBackend := by
  refine ⟨fun h => ?_, fun h => ?_⟩
  · have := h 0 _ 0 _ [] [] ⟨rfl, rfl⟩ .nil
    exact nomatch this
  · have := h 0 _ 0 _ [.null] [()] ⟨rfl, rfl⟩ (.cons rfl .nil)
    exact nomatch this

/-- C27: *no* method without parameters can be called through its stub, in any backend. -/
theorem C27_zero_args_always_fail {b : BackendDef S V} (hw : WellFormed b) {i j : Nat}
    {n : NamespaceDef S V} {m : MethodDef S V} (hm : HasMethod b i n j m) (h0 : m.args = []) :
    ∃ e, b.service.decode (callValue n.nsName m.name []) = .error e ∨
      ∃ i' n', i' ≠ i ∧ b.fields[i']? = some n' ∧ n'.ident = n.nsName := by
  cases hd : b.service.decode (callValue n.nsName m.name []) with
  | error e => exact ⟨e, .inl rfl⟩
  | ok c =>
    refine ⟨.custom, .inr ?_⟩
    obtain ⟨n', md, tag, a, h1, h2, h3, h4, h5, h6⟩ :=
      (C25_dispatch hw (callValue_sorted _ _ _) c.ns c.method c.args).1 hd
    have hid : n'.ident = n.nsName := by
      have : some (Json.str n.nsName) = some (.str n'.ident) := h2
      injection this with this; injection this with this; exact this.symm
    refine ⟨c.ns, n', ?_, h1, hid⟩
    intro e
    rw [e, hm.1] at h1
    injection h1 with h1; subst h1
    have ht : tag = .str m.name := by
      have : some (Json.str m.name) = some tag := h3
      injection this with this; exact this.symm
    have ha : a = .arr [] := by
      have : some (Json.arr []) = some a := h5
      injection this with this; exact this.symm
    subst ht; subst ha
    have hmd : md.name = m.name := by
      rcases h4.2 with h | h
      · injection h with h; exact h.symm
      · exact nomatch h.1
    -- same name, same method
    have hj : c.method = j := by
      have hn := hw.2 n (List.mem_of_getElem? hm.1)
      have e1 : (n.methods.map (·.name))[c.method]? = some m.name := by simp [h4.1, hmd]
      have e2 : (n.methods.map (·.name))[j]? = some m.name := by simp [hm.2]
      have := ((findIdx?_nodup hn _ _).2 e1).symm.trans ((findIdx?_nodup hn _ _).2 e2)
      exact Option.some.inj this
    have : md = m := by
      have := h4.1; rw [hj, hm.2] at this; exact (Option.some.inj this).symm
    subst this
    rcases h6 with ⟨_, _, h | h⟩ | ⟨h, _⟩
    · exact nomatch h
    · exact nomatch h
    · exact h h0

/-- C27, the part that holds: in a namespace that is not renamed, every method with at least one
parameter can be called through its stub, over the whole path from the client message to the
dispatched call. Missing: methods without parameters, renamed namespaces. -/
theorem C27_partial {b : BackendDef S V} (hw : WellFormed b) {i j : Nat}
    {n : NamespaceDef S V} {m : MethodDef S V} (hm : HasMethod b i n j m)
    (hname : n.nsName = n.ident) (hargs : m.args ≠ []) {js : List Json} {vs : List V}
    (hd : ArgsDecode m.args (js.map Json.toValue) vs) {id : Nat} (hid : id < 2 ^ 64) :
    ∃ value, Request.decode (clientMessage id n.nsName m.name js) = .ok (.exec id value) ∧
      b.service.decode value = .ok ⟨i, j, vs⟩ := by
  refine ⟨_, C23_client_message id _ _ _ hid, ?_⟩
  refine (C25_dispatch hw (callValue_sorted _ _ _) i j vs).2 ?_
  exact ⟨n, m, _, _, hm.1, by rw [hname]; rfl, rfl, ⟨hm.2, .inl rfl⟩, rfl,
    .inr ⟨hargs, _, rfl, hd⟩⟩

/-- C27, exactly which stubs work: the message of the stub of a method is a call of that method with arguments
`vs` iff the namespace is not renamed, the method has parameters, and the arguments decode to `vs`. -/
theorem C27_exact {b : BackendDef S V} (hw : WellFormed b) {i j : Nat} {n : NamespaceDef S V} {m : MethodDef S V}
    (hm : HasMethod b i n j m) (js : List Json) (vs : List V) :
    b.service.decode (callValue n.nsName m.name js) = .ok ⟨i, j, vs⟩ ↔
      n.nsName = n.ident ∧ m.args ≠ [] ∧ ArgsDecode m.args js vs := by
  refine (C25_dispatch hw (callValue_sorted _ _ _) i j vs).trans ⟨?_, fun ⟨h1, h2, h3⟩ => ?_⟩
  · rintro ⟨n', m', tag, a, h1, h2, h3, h4, h5, h6⟩
    have e1 : n' = n := by rw [hm.1] at h1; exact (Option.some.inj h1).symm
    subst e1
    have e2 : m' = m := by have := h4.1; rw [hm.2] at this; exact (Option.some.inj this).symm
    subst e2
    have e3 : n'.nsName = n'.ident := by
      have : some (Json.str n'.nsName) = some (.str n'.ident) := h2
      injection this with this; injection this
    have ha : a = .arr js := by
      have : some (Json.arr js) = some a := h5
      injection this with this; exact this.symm
    subst ha
    rcases h6 with ⟨_, _, h | h⟩ | ⟨h, js', e, hd⟩
    · exact nomatch h
    · exact nomatch h
    · injection e with e; subst e
      exact ⟨e3, h, hd⟩
  · exact ⟨n, m, _, _, hm.1, by rw [h1]; rfl, rfl, ⟨hm.2, .inl rfl⟩, rfl, .inr ⟨h2, _, rfl, h3⟩⟩

/-- C27 holds for a backend iff every method that has decodable arguments at all has parameters and belongs to a
namespace that is not renamed. -/
theorem C27_statement_iff {b : BackendDef S V} (hw : WellFormed b) :
    C27_statement b ↔ ∀ i n j m js vs, HasMethod b i n j m → ArgsDecode m.args js vs →
      n.nsName = n.ident ∧ m.args ≠ [] := by
  refine ⟨fun h i n j m js vs hm hd => ?_, fun h i n j m js vs hm hd => ?_⟩
  · exact ⟨((C27_exact hw hm js vs).1 (h i n j m js vs hm hd)).1, ((C27_exact hw hm js vs).1 (h i n j m js vs hm hd)).2.1⟩
  · exact (C27_exact hw hm js vs).2 ⟨(h i n j m js vs hm hd).1, (h i n j m js vs hm hd).2, hd⟩

example : ∃ value, Request.decode (clientMessage 1 (lit "Counter") (lit "ticks") [.num (.int 3)]) =
    .ok (.exec 1 value) ∧ Demo.sv.decode value = .ok ⟨0, 1, [3]⟩ := ⟨_, rfl, rfl⟩

/-! ## C28 -/

/-- C28. `Response::method` / `Response::stream` answer with the serialized value under the given id,
or with an error under the same id when the value does not serialize. -/
theorem C28_serialization (id : Nat) (value : Except SerdeErr Json) :
    (∀ data, value = .ok data → Response.mkMethod id value = .method id data ∧
      Response.mkStream id value = .stream id data) ∧
    (∀ e, value = .error e → Response.mkMethod id value = .error (some id) e ∧
      Response.mkStream id value = .error (some id) e) := by
  constructor
  · rintro data rfl; exact ⟨rfl, rfl⟩
  · rintro e rfl; exact ⟨rfl, rfl⟩

/-- C28 in the running server: whatever a method returns, its caller gets exactly one response, and it
carries the id of the call. -/
theorem C28_id_kept {σ C : Type} {sv : Service σ C} {b : σ} {s s₁ : State σ C}
    (_hr : Reachable sv b s) {c id : Nat} {call : C} {i : Input} (hl : s.loop = .busy c id call i)
    (ha : (s.conns c).alive = true) (h : step sv s .methodDone = some s₁) :
    ∃ r, (s₁.conns c).produced = (s.conns c).produced ++ [(none, r)] ∧
      ((∃ data, (sv.runMethod s.backend call).2 = .ok data ∧ r = .method id data) ∨
       (∃ e, (sv.runMethod s.backend call).2 = .error e ∧ r = .error (some id) e)) := by
  cases step_Step h with
  | methodFail c' id' call' i' hl' ha' =>
    rw [hl] at hl'; injection hl' with e1; rw [← e1, ha] at ha'; cases ha'
  | methodOk c' id' call' i' hl' ha' =>
    rw [hl] at hl'; injection hl' with e1 e2 e3 e4
    subst e1; subst e2; subst e3; subst e4
    refine ⟨Response.mkMethod id (sv.runMethod s.backend call).2, ?_, ?_⟩
    · simp [Conn.send, ha]
    · cases hv : (sv.runMethod s.backend call).2 with
      | ok data => exact .inl ⟨data, rfl, rfl⟩
      | error e => exact .inr ⟨e, rfl, rfl⟩

example : ∃ s s₁ call i, run Demo.sv Demo.init [.connect, Demo.callF 0 "add" 7 5, .take] = some s ∧
    s.loop = .busy 0 7 call i ∧ (s.conns 0).alive = true ∧ step Demo.sv s .methodDone = some s₁ :=
  ⟨_, _, _, _, rfl, rfl, rfl, rfl⟩

end Verif.Props
