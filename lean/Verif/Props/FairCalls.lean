import Verif.Props.EndToEnd
import Verif.Props.Fair

/-!
# C60 on a fair network

Calls of client functions that pass validation get what the method returns some time, and it is of the declared type.
-/

namespace Verif.Props
open Verif Verif.Schema Verif.SchemaSpec Verif.Js Verif.Ts Verif.Spec Verif.Codegen Verif.Zod
open Verif.WireSpec Verif.DispatchSpec Verif.ServerSpec Verif.System Verif.SystemSpec

/-- **C60, on a fair network.** Under the hypotheses of `C60_call_partial` for the function and its arguments, and those of C63 for an
execution that goes on for ever: if client `i` calls the function at moment `n`, there is a moment at which the server has
executed the method of the function, with what its decoders make of the arguments, in some state `x` of its namespace; and if the
method returned a value then, the promise has resolved with it, and it is of the declared type. -/
theorem C60_fair_partial (P : Program) (impls : List (Str × List RpcItem)) (r : Registry) (wide odd lenient : Bool)
    {S V : Type} (b : BackendDef S V) (M : List Ns) (hp : Printable P impls) (hm : Codegen.IsModule P impls r)
    (hB : BackendFor P odd impls b) (hw : Writes r (backendNames b) M) (hc : NoClash M)
    (hname : ∀ n ∈ b.fields, n.nsName = n.ident) (hns : ∀ d ∈ P, d.ns ∈ backendNames b) (hone : (impls.map (·.1)).Nodup)
    (hf : NoFlattenedUnion P) (hT : ∀ d ∈ P, TypedDecl P odd lenient d) (hS : ∀ d ∈ P, SoundDecl wide P d) (hlax : Lax P)
    (N : Ns) (hN : N ∈ M) (F : Fn) (hF : Item.func F ∈ N.items)
    (ht : ∀ x ∈ impls, x.1 = N.name → ∀ f ∈ x.2, f.ident = F.name →
      Typed odd f.output ∧ f.args ≠ [] ∧ ∀ a ∈ f.args, Sound wide P a.2)
    (T : TsType) (hret : F.ret = .app [lit "Promise"] [T])
    -- the body of the function
    (ss : List Stmt) (es : List JsExpr) (ns m : Str) (hbody : F.body = ss ++ [.expr (validation es),
      .ret (.call (.var (lit "request")) [.str ns, .str m, .var (lit "arguments")])])
    -- validation accepts the arguments
    (zs : List ZSchema) (hzs : All2 (fun e z => evalE e = some (.schema z)) es zs)
    (l : List JsVal) (res : JsVal) (hval : ParsesTo (moduleSchemas M) (.tuple zs) (.arr l) res)
    (hprop : properJs (.arr l) = true) (hplain : plainJs wide (.arr l) = true) (hkept : Kept (.arr l) res)
    (js : List Json) (hjs : stringify (.arr l) = some (some (.arr js)))
    -- the execution
    {st₀ : List S} (hlen : st₀.length = b.fields.length) {st : Nat → State (List S) (Call V)} {lab : Nat → Option Label} {i n : Nat}
    (hE : Execution b.service st₀ st lab) (hP : Peaceful b.service st lab) (hC : CalmForever st lab) (hF' : Fair b.service st lab i)
    (hn : lab n = some (.client i (.request ns m js))) (hs : hasSocket (st (n + 1)) i) :
    ∃ n', n < n' ∧ ∃ im nd jm md fn vs c before after x, HasMethod b im nd jm md ∧ nd.nsName = N.name ∧ md.name = F.name ∧
      md.body = .method fn ∧ ArgsDecode md.args (js.map Json.toValue) vs ∧
      (st n').server.log = before ++ (c, lastRequest (st (n + 1)) i ns m js) :: after ∧
      (replay b.service st₀ before)[im]? = some x ∧
      ∀ d, (fn x vs).2 = .ok d → promise (st n) i (st n') = [d] ∧ Inhabits (moduleTypes M) lenient T (fromJson d) := by
  obtain ⟨rfl, rfl, im, nd, jm, md, vs, f, hkind, hhas, end', hname', hrf, g3, hlook, g4⟩ := stub_delivers hp hm hB hw hc hname hns hone hS
    hlax hN hF (fun x hx e f hf e' => (ht x hx e f hf e').2) hbody hzs hval hprop hplain hkept hjs
  obtain ⟨n', hlt, c, before, after, hl, hres⟩ := C63_partial hE hP hC hF' hn hs
  have him : im < (replay b.service st₀ before).length := by
    rw [replay_length, hlen]
    exact (List.getElem?_eq_some_iff.1 hhas.1).1
  cases hrf with
  | stream fn e1 => rw [hkind.2 rfl] at e1; cases e1
  | method fn e1 e2 e3 =>
    refine ⟨n', hlt, im, nd, jm, md, fn, vs, c, before, after, _, hhas, end', hname', e2, g3, hl, List.getElem?_eq_getElem him, fun d hd => ?_⟩
    have hprom := hres d (method_returns e2 hlook g4 (List.getElem?_eq_getElem him) hd _)
    refine ⟨hprom, ?_⟩
    obtain ⟨ls, hls⟩ := hE.later (show n + 1 ≤ n' from hlt)
    refine C60_partial P impls r odd lenient b M hp hm hB hw hc hname hns hf hT N hN F hF
      (fun x hx hxn f hf e => (ht x hx hxn f hf e).1) T st₀ d ?_
    refine .promise N.name F.name i js (st n) (st (n + 1)) (st n') ls hret ⟨ss ++ [.expr (validation es)], ?_⟩ (hE.reach n) (hE.step hn)
      hls (hP.calls n' i) (by rw [hprom]; simp)
    rw [hbody, List.append_assoc]
    rfl

/-- The items of the stream of the method are the items of the call. -/
theorem stream_streams {S V : Type} {b : BackendDef S V} {im jm : Nat} {vs : List V} {md : MethodDef S V}
    {fn : S → List V → S × (Nat → Option (Except SerdeErr Json))} (hbody : md.body = .stream fn)
    (hlook : b.lookup (⟨im, jm, vs⟩ : Call V) = some md) {ns m : Str} {js : List Json}
    (hdec : b.service.decode (callValue ns m (js.map Json.toValue)) = .ok (⟨im, jm, vs⟩ : Call V)) {z : List S} {y : S}
    (hy : z[im]? = some y) (id : Nat) :
    SystemSpec.Streams b.service z (requestOf id ns m js) (fn y vs).2 := by
  refine ⟨_, _, _, rfl, hdec, ?_, ?_⟩
  · simp [BackendDef.service, isStreamCall, hlook, hbody]
  · show (runStream b z ⟨im, jm, vs⟩).2 = _
    simp [runStream, hlook, hy, hbody]

/-- **C60, streams on a fair network.** Under the same hypotheses for a function that returns a stream: if client `i` calls the
function, attaches a callback at once and keeps it attached, and no callback of the client throws, there is a moment at which the
server has started the stream of the method, with what its decoders make of the arguments; and if that stream gets polled, then for
every number of items it has there is a moment at which the callback has been called with these, in order; and whatever the
callback is called with is of the declared type. -/
theorem C60_fair_stream_partial (P : Program) (impls : List (Str × List RpcItem)) (r : Registry) (wide odd lenient : Bool)
    {S V : Type} (b : BackendDef S V) (M : List Ns) (hp : Printable P impls) (hm : Codegen.IsModule P impls r)
    (hB : BackendFor P odd impls b) (hw : Writes r (backendNames b) M) (hc : NoClash M)
    (hname : ∀ n ∈ b.fields, n.nsName = n.ident) (hns : ∀ d ∈ P, d.ns ∈ backendNames b) (hone : (impls.map (·.1)).Nodup)
    (hf : NoFlattenedUnion P) (hT : ∀ d ∈ P, TypedDecl P odd lenient d) (hS : ∀ d ∈ P, SoundDecl wide P d) (hlax : Lax P)
    (N : Ns) (hN : N ∈ M) (F : Fn) (hF : Item.func F ∈ N.items)
    (ht : ∀ x ∈ impls, x.1 = N.name → ∀ f ∈ x.2, f.ident = F.name →
      Typed odd f.output ∧ f.args ≠ [] ∧ ∀ a ∈ f.args, Sound wide P a.2)
    (T : TsType) (hret : F.ret = .app [lit "Store"] [T])
    -- the body of the function
    (ss : List Stmt) (es : List JsExpr) (ns m : Str) (hbody : F.body = ss ++ [.expr (validation es),
      .ret (.call (.var (lit "subscribe")) [.str ns, .str m, .var (lit "arguments")])])
    -- validation accepts the arguments
    (zs : List ZSchema) (hzs : All2 (fun e z => evalE e = some (.schema z)) es zs)
    (l : List JsVal) (res : JsVal) (hval : ParsesTo (moduleSchemas M) (.tuple zs) (.arr l) res)
    (hprop : properJs (.arr l) = true) (hplain : plainJs wide (.arr l) = true) (hkept : Kept (.arr l) res)
    (js : List Json) (hjs : stringify (.arr l) = some (some (.arr js)))
    -- the execution
    {st₀ : List S} (hlen : st₀.length = b.fields.length) {st : Nat → State (List S) (Call V)} {lab : Nat → Option Label} {i n : Nat}
    (hE : Execution b.service st₀ st lab) (hP : Peaceful b.service st lab) (hC : CalmForever st lab) (hF' : Fair b.service st lab i)
    (hn : lab n = some (.client i (.subscribe ns m js)))
    (ha : lab (n + 1) = some (.client i (.attach ((st (n + 1)).clients i).reqId)))
    (hs : hasSocket (st (n + 1)) i) (hatt : ∀ n', n + 2 ≤ n' → attached (st (n + 1)) i (st n'))
    (hthrow : ∀ n', ((st n').clients i).threw = false) :
    (∀ n', n + 2 ≤ n' → ∀ d ∈ calledWith (st (n + 1)) i (st n'), Inhabits (moduleTypes M) lenient T (fromJson d)) ∧
    ∃ n', n + 2 ≤ n' ∧ ∃ im nd jm md fn vs c before after x, HasMethod b im nd jm md ∧ nd.nsName = N.name ∧ md.name = F.name ∧
      md.body = .stream fn ∧ ArgsDecode md.args (js.map Json.toValue) vs ∧
      (st n').server.log = before ++ (c, lastRequest (st (n + 1)) i ns m js) :: after ∧
      (replay b.service st₀ before)[im]? = some x ∧
      (FairStream b.service st lab (streams b.service st₀ before).length → ∀ K, (∀ p, p < K → (fn x vs).2 p ≠ none) →
        ∃ n'', n' ≤ n'' ∧ itemData (fn x vs).2 K <+: calledWith (st (n + 1)) i (st n'')) := by
  obtain ⟨rfl, rfl, im, nd, jm, md, vs, f, hkind, hhas, end', hname', hrf, g3, hlook, g4⟩ := stub_delivers hp hm hB hw hc hname hns hone hS
    hlax hN hF (fun x hx e f hf e' => (ht x hx e f hf e').2) hbody hzs hval hprop hplain hkept hjs
  refine ⟨fun n' hle d hd => ?_, ?_⟩
  · obtain ⟨ls, hls⟩ := hE.later hle
    refine C60_partial P impls r odd lenient b M hp hm hB hw hc hname hns hf hT N hN F hF
      (fun x hx hxn f hf e => (ht x hx hxn f hf e).1) T st₀ d ?_
    refine .store N.name F.name i js (st n) (st (n + 1)) (st (n + 1)) (st (n + 2)) (st n') [] ls hret
      ⟨ss ++ [.expr (validation es)], ?_⟩ (hE.reach n) (hE.step hn) rfl (hE.step ha) hls (hP.calls n' i) hd
    rw [hbody, List.append_assoc]
    rfl
  · obtain ⟨n', hlt, c, before, after, hl, hres⟩ := C63_stream hE hP hC hF' hn ha hs hatt hthrow
    have him : im < (replay b.service st₀ before).length := by
      rw [replay_length, hlen]
      exact (List.getElem?_eq_some_iff.1 hhas.1).1
    cases hrf with
    | method fn e1 => exact absurd (hkind.1 e1) (by decide)
    | stream fn e1 e2 e3 =>
      exact ⟨n', hlt, im, nd, jm, md, fn, vs, c, before, after, _, hhas, end', hname', e2, g3, hl, List.getElem?_eq_getElem him,
        hres _ (stream_streams e2 hlook g4 (List.getElem?_eq_getElem him) _)⟩

/-! ## Examples -/

/-- `find(7)` is called and answered, and the connection ends. -/
def exFindForever : List Label := exFindCall :: exFindRun ++ [.endUp 0, .endDown 0 0]

def exFindCheck : Bool :=
  match run exHubBackend.service (System.init [0]) exFindForever with
  | some s => settledB exHubBackend.service s 0
  | none => false

theorem exHub_finds {im jm : Nat} {nd : NamespaceDef Nat UInt32} {md : MethodDef Nat UInt32} {fn : Nat → List UInt32 → Nat × Except SerdeErr Json}
    (h : HasMethod exHubBackend im nd jm md) (hb : md.body = .method fn) (x : Nat) (vs : List UInt32) :
    ∃ d, (fn x vs).2 = .ok d := by
  obtain ⟨h1, h2⟩ := h
  have h1 := List.mem_of_getElem? h1
  rw [exHubBackend, List.mem_singleton] at h1
  subst h1
  have h2 := List.mem_of_getElem? h2
  simp only [exHubNs, List.mem_cons, List.not_mem_nil, or_false] at h2
  rcases h2 with rfl | rfl
  · injection hb with hb
    subst hb
    exact ⟨_, rfl⟩
  · cases hb

/-- A case of C60 on a fair network: some time, the promise of `find(7)` resolves with a user, which is of the declared type. -/
example : ∃ M T n' d, ∃ (st : Nat → State (List Nat) (Call UInt32)) (lab : Nat → Option Label),
    Writes (mkRegistry exHub exHubImpls 9) (backendNames exHubBackend) M ∧ Execution exHubBackend.service [0] st lab ∧
    lab 0 = some exFindCall ∧ promise (st 0) 0 (st n') = [d] ∧ Inhabits (moduleTypes M) false T (fromJson d) := by
  obtain ⟨s, h, hs⟩ : ∃ s, run exHubBackend.service (System.init [0]) exFindForever = some s ∧
      settledB exHubBackend.service s 0 = true := by
    have h : exFindCheck = true := by decide +kernel
    unfold exFindCheck at h
    split at h
    · exact ⟨_, ‹_›, h⟩
    · cases h
  have hE := trace_execution h
  have hP := trace_peaceful h (by decide) (by decide +kernel)
  have hC : CalmForever (trace exHubBackend.service (System.init [0]) exFindForever) (labels exFindForever) :=
    trace_calm (by decide +kernel)
  have hsock : hasSocket (trace exHubBackend.service (System.init [0]) exFindForever 1) 0 := by
    have : ((trace exHubBackend.service (System.init [0]) exFindForever 1).clients 0).socket = some 0 := by decide +kernel
    unfold hasSocket; rw [this]; simp
  obtain ⟨M, hw, hc⟩ := exHub_noClash
  obtain ⟨M', hw', hmo⟩ := writes_of exHub_printable exHub_isModule (backendNames exHubBackend)
  have := writes_unique hw hw'
  subst this
  obtain ⟨N, hN, eN, i, hi, ps, es, t, T, h1, h2, h3, h4, rfl⟩ := stub_mem hmo (b := (lit "Ns", [exFind, exWatch])) (List.mem_singleton.2 rfl)
    (by decide +kernel) (f := exFind) List.mem_cons_self
  obtain ⟨e, z, he, hz, hpz⟩ := exFind_schema
  have hes : es = [e] := by
    match es, h2 with
    | [e'], .cons ⟨x, hx, hx'⟩ .nil =>
      obtain ⟨y, hy, hy'⟩ := he
      have e0 := Schema.returns_unique hx hy
      subst e0
      rw [hx'] at hy'
      injection hy' with hy'
      rw [hy']
  subst hes
  obtain ⟨n', hlt, im, nd, jm, md, fn, vs, c, before, after, x, hhas, _, _, hb, hdec, hl, hx, hall⟩ := C60_fair_partial exHub exHubImpls _
    false false false exHubBackend M
    exHub_printable exHub_isModule exHub_backend hw hc (forall_one rfl) (forall_one (by decide +kernel)) (by decide +kernel)
    exHub_noUnion (exHub_typed false) exHub_sound (forall_one ⟨rfl, forall_two rfl rfl⟩) N hN _ hi (by
      refine forall_one (fun _ => forall_two (fun _ => ⟨.named 0, by simp [exFind], forall_one (.prim _ rfl)⟩)
        (fun e => absurd (show lit "watch" = lit "find" from e) (by decide +kernel))))
    T rfl (ps.map (fun p => .expr (.var p.1))) [e] (lit "Ns") (lit "find") (by rfl) [z]
    (.cons hz .nil) [.num (.fin (7 : Int))] _ (hpz _) (by decide +kernel) (by decide +kernel)
    (.arr _ _ (.cons (.leaf _ (fun _ h => nomatch h) (fun _ h => nomatch h)) .nil)) [.num (.int 7)] (by rfl)
    (st₀ := [0]) rfl hE hP hC (settled_fair h hs) (n := 0) rfl hsock
  obtain ⟨d, hd⟩ := exHub_finds hhas hb x vs
  exact ⟨M, T, n', d, _, _, hw, hE, rfl, hall d hd⟩

/-- The same backend, whose stream has two items. -/
def exBriefNs : NamespaceDef Nat UInt32 where
  ident := lit "Ns"
  nsName := lit "Ns"
  methods := [
    { name := lit "find", args := [decodeU32], body := .method fun s a => (s + 1, .ok (userDoc (a.headD 0))) },
    { name := lit "watch", args := [decodeU32],
      body := .stream fun s a => (s, fun i => if i < 2 then some (.ok (userDoc (a.headD 0))) else none) } ]

def exBriefBackend : BackendDef Nat UInt32 := ⟨[exBriefNs]⟩

theorem exBrief_backend : BackendFor exHub false exHubImpls exBriefBackend := by
  refine ⟨⟨by simp [exBriefBackend], forall_one (by decide +kernel)⟩, forall_one ⟨_, List.mem_singleton.2 rfl, ?_⟩⟩
  refine .cons ⟨⟨rfl, .cons (fun _ h => decodeU32_of h) .nil⟩, ?_⟩
    (.cons ⟨⟨rfl, .cons (fun _ h => decodeU32_of h) .nil⟩, ?_⟩ .nil)
  · refine .method _ rfl rfl (fun s vs d h => ?_)
    injection h with h
    subst h
    exact userDoc_written _
  · refine .stream _ rfl rfl (fun s vs n d h => ?_)
    simp only at h
    split at h
    · injection h with h
      injection h with h
      subst h
      exact userDoc_written _
    · cases h

/-- `watch(7)` is called, and its items arrive. -/
def exWatchForever : List Label :=
  [exWatchCall, .client 0 (.attach 1),
   .accept 0 0, .opened 0, .deliver 0, .server .take, .server (.poll 0), .server (.item 0),
   .server (.item 0), .server (.pending 0), .server (.poll 0), .server (.item 0),
   .server (.flush 0), .respond 0, .client 0 .visit, .client 0 .visit,
   .server (.flush 0), .respond 0, .client 0 .visit, .client 0 .visit]

def exWatchCheck : Bool :=
  match run exBriefBackend.service (System.init [0]) exWatchForever with
  | some s => settledB exBriefBackend.service s 0 && (step exBriefBackend.service s (.server (.poll 0))).isNone &&
      (step exBriefBackend.service s (.server (.item 0))).isNone
  | none => false

/-- The items of the stream of `exBriefBackend`. -/
theorem exBrief_watches {im jm : Nat} {nd : NamespaceDef Nat UInt32} {md : MethodDef Nat UInt32}
    {fn : Nat → List UInt32 → Nat × (Nat → Option (Except SerdeErr Json))}
    (h : HasMethod exBriefBackend im nd jm md) (hb : md.body = .stream fn) (x : Nat) (vs : List UInt32) :
    ∃ d, itemData (fn x vs).2 2 = [d, d] ∧ ∀ p, p < 2 → (fn x vs).2 p ≠ none := by
  obtain ⟨h1, h2⟩ := h
  have h1 := List.mem_of_getElem? h1
  rw [exBriefBackend, List.mem_singleton] at h1
  subst h1
  have h2 := List.mem_of_getElem? h2
  simp only [exBriefNs, List.mem_cons, List.not_mem_nil, or_false] at h2
  rcases h2 with rfl | rfl
  · cases hb
  · injection hb with hb
    subst hb
    exact ⟨_, rfl, fun p hp => by simp [hp]⟩

/-- A case of C60 for a stream: some time the callback has been called with two users. -/
example : ∃ M T n' d, ∃ (st : Nat → State (List Nat) (Call UInt32)) (lab : Nat → Option Label),
    Writes (mkRegistry exHub exHubImpls 9) (backendNames exBriefBackend) M ∧ Execution exBriefBackend.service [0] st lab ∧
    lab 0 = some exWatchCall ∧ [d, d] <+: calledWith (st 1) 0 (st n') ∧ Inhabits (moduleTypes M) false T (fromJson d) := by
  obtain ⟨s, h, hs⟩ : ∃ s, run exBriefBackend.service (System.init [0]) exWatchForever = some s ∧
      (settledB exBriefBackend.service s 0 && (step exBriefBackend.service s (.server (.poll 0))).isNone &&
        (step exBriefBackend.service s (.server (.item 0))).isNone) = true := by
    have h : exWatchCheck = true := by decide +kernel
    unfold exWatchCheck at h
    split at h
    · exact ⟨_, ‹_›, h⟩
    · cases h
  simp only [Bool.and_eq_true] at hs
  obtain ⟨⟨hs, hs1⟩, hs2⟩ := hs
  have hE := trace_execution h
  have hP := trace_peaceful h (by decide) (by decide +kernel)
  have hC : CalmForever (trace exBriefBackend.service (System.init [0]) exWatchForever) (labels exWatchForever) :=
    trace_calm (by decide +kernel)
  have hsock : hasSocket (trace exBriefBackend.service (System.init [0]) exWatchForever 1) 0 := by
    have : ((trace exBriefBackend.service (System.init [0]) exWatchForever 1).clients 0).socket = some 0 := by decide +kernel
    unfold hasSocket; rw [this]; simp
  have hid : labels exWatchForever 1 =
      some (.client 0 (.attach ((trace exBriefBackend.service (System.init [0]) exWatchForever 1).clients 0).reqId)) := by
    have : ((trace exBriefBackend.service (System.init [0]) exWatchForever 1).clients 0).reqId = 1 := by decide +kernel
    rw [this]; rfl
  have hatt : ∀ n', 2 ≤ n' → attached (trace exBriefBackend.service (System.init [0]) exWatchForever 1) 0
      (trace exBriefBackend.service (System.init [0]) exWatchForever n') := by
    intro n' hn'
    have hn : ((trace exBriefBackend.service (System.init [0]) exWatchForever 1).clients 0).nsub = 0 := by decide +kernel
    unfold attached
    rw [hn]
    by_cases e : n' ≤ exWatchForever.length
    · have : ∀ m ∈ List.range 21, 2 ≤ m →
          0 ∈ ((trace exBriefBackend.service (System.init [0]) exWatchForever m).clients 0).live := by decide +kernel
      exact this n' (List.mem_range.2 (by simp [exWatchForever] at e; omega)) hn'
    · have : 0 ∈ ((trace exBriefBackend.service (System.init [0]) exWatchForever exWatchForever.length).clients 0).live := by
        decide +kernel
      rw [trace_end h _ (Nat.le_refl _)] at this
      rw [trace_end h _ (by omega)]
      exact this
  have hthrow : ∀ n', ((trace exBriefBackend.service (System.init [0]) exWatchForever n').clients 0).threw = false := by
    intro n'
    have := trace_all h (p := fun s => !(s.clients 0).threw) (by decide +kernel) n'
    simpa using this
  have hFS : FairStream exBriefBackend.service (trace exBriefBackend.service (System.init [0]) exWatchForever) (labels exWatchForever) 0 := by
    refine ⟨weak_of_end h (not_enabled hs1), strong_of_end h (not_enabled hs2), fun n hn => ?_⟩
    have := labels_mem hn
    simp [exWatchForever, exWatchCall] at this
  obtain ⟨M, hw, hc⟩ := exHub_noClash
  obtain ⟨M', hw', hmo⟩ := writes_of exHub_printable exHub_isModule (backendNames exBriefBackend)
  have := writes_unique hw hw'
  subst this
  obtain ⟨N, hN, eN, i, hi, ps, es, t, T, h1, h2, h3, h4, rfl⟩ := stub_mem hmo (b := (lit "Ns", [exFind, exWatch])) (List.mem_singleton.2 rfl)
    (by decide +kernel) (f := exWatch) (List.mem_cons_of_mem _ List.mem_cons_self)
  obtain ⟨e, z, he, hz, hpz⟩ := exFind_schema
  have hes : es = [e] := by
    match es, h2 with
    | [e'], .cons ⟨x, hx, hx'⟩ .nil =>
      obtain ⟨y, hy, hy'⟩ := he
      have e0 := Schema.returns_unique hx hy
      subst e0
      rw [hx'] at hy'
      injection hy' with hy'
      rw [hy']
  subst hes
  obtain ⟨hty, n', hle, im, nd, jm, md, fn, vs, c, before, after, x, hhas, _, _, hb, hdec, hl, hx, hall⟩ :=
    C60_fair_stream_partial exHub exHubImpls _ false false false exBriefBackend M
    exHub_printable exHub_isModule exBrief_backend hw hc (forall_one rfl) (forall_one (by decide +kernel)) (by decide +kernel)
    exHub_noUnion (exHub_typed false) exHub_sound (forall_one ⟨rfl, forall_two rfl rfl⟩) N hN _ hi (by
      refine forall_one (fun _ => forall_two
        (fun e => absurd (show lit "find" = lit "watch" from e) (by decide +kernel))
        (fun _ => ⟨.named 0, by simp [exWatch], forall_one (.prim _ rfl)⟩)))
    T rfl (ps.map (fun p => .expr (.var p.1))) [e] (lit "Ns") (lit "watch") (by rfl) [z]
    (.cons hz .nil) [.num (.fin (7 : Int))] _ (hpz _) (by decide +kernel) (by decide +kernel)
    (.arr _ _ (.cons (.leaf _ (fun _ h => nomatch h) (fun _ h => nomatch h)) .nil)) [.num (.int 7)] (by rfl)
    (st₀ := [0]) rfl hE hP hC (settled_fair h hs) (n := 0) rfl hid hsock hatt hthrow
  obtain ⟨d, hd, hnone⟩ := exBrief_watches hhas hb x vs
  -- the stream of the call is the first one
  have hbefore : before = [] := by
    have hlog := trace_all h (p := fun s => decide (s.server.log.length ≤ 1)) (by decide +kernel) n'
    rw [decide_eq_true_eq, hl] at hlog
    simp only [List.length_append, List.length_cons] at hlog
    exact List.length_eq_zero_iff.1 (by omega)
  subst hbefore
  obtain ⟨n'', hle', hpre⟩ := hall hFS 2 hnone
  rw [hd] at hpre
  exact ⟨M, T, n'', d, _, _, hw, hE, rfl, hpre, hty n'' (Nat.le_trans hle hle') d (hpre.subset List.mem_cons_self)⟩

end Verif.Props
