import Verif.Ts.Env
import Verif.Props.Written
import Verif.Props.Module
import Verif.Props.Calls
import Verif.Props.System

/-!
# C60: types across the whole system

What a function of the generated module gives its caller is a value of the type the module declares for it.
Specification: `Verif/Spec/Backend.lean`.
-/

namespace Verif.Props
open Verif Verif.Schema Verif.SchemaSpec Verif.Js Verif.Ts Verif.Spec Verif.Codegen Verif.Zod
open Verif.WireSpec Verif.DispatchSpec Verif.ServerSpec Verif.System Verif.SystemSpec

/-- The full property: what a client function of the module generated for a backend gives its caller, in any history
of the system, is a value of the type that the module declares for its result. -/
def C60_statement : Prop :=
  ∀ (P : Program) (impls : List (Str × List RpcItem)) (r : Registry) (S V : Type) (b : BackendDef S V) (M : List Ns),
    Printable P impls → Codegen.IsModule P impls r → BackendFor P true impls b → Writes r (backendNames b) M → NoClash M →
    ∀ N ∈ M, ∀ F, Item.func F ∈ N.items → ∀ T (st : List S) d, Received b.service st F T d →
      Inhabits (moduleTypes M) false T (fromJson d)

theorem map_nodup_inj {α : Type} {g : α → Str} {l : List α} (h : (l.map g).Nodup) {x y : α} (hx : x ∈ l) (hy : y ∈ l)
    (e : g x = g y) : x = y := by
  induction l with
  | nil => cases hx
  | cons a l ih =>
    rw [List.map_cons, List.nodup_cons] at h
    rcases List.mem_cons.1 hx with rfl | hx' <;> rcases List.mem_cons.1 hy with rfl | hy'
    · rfl
    · exact absurd (e ▸ List.mem_map_of_mem hy') h.1
    · exact absurd (e.symm ▸ List.mem_map_of_mem hx') h.1
    · exact ih h.2 hx' hy'

/-- The backend decodes a call of the name of a function, in the namespace of that name, to a method for the
function. -/
theorem method_of_call {S V : Type} {P : Program} {odd : Bool} {impls : List (Str × List RpcItem)} {b : BackendDef S V}
    (hB : BackendFor P odd impls b) (hname : ∀ n ∈ b.fields, n.nsName = n.ident) {ns : Str}
    (hnd : (declaredNames P impls ns).Nodup) {x : Str × List RpcItem} (hx : x ∈ impls) (hxn : x.1 = ns) {f : RpcItem}
    (hf : f ∈ x.2) {js : List Json} {call : Call V} (hd : b.service.decode (callValue ns f.ident js) = .ok call) :
    ∃ n m, HasMethod b call.ns n call.method m ∧ n.nsName = ns ∧ MethodFor P f m ∧ ResultFor P odd f m ∧
      ArgsFit m.args (.arr js) call.args := by
  obtain ⟨i, j, vs⟩ := call
  obtain ⟨n, m, tag, a, h1, h2, h3, h4, h5, h6⟩ := (C25_dispatch hB.wellFormed (callValue_sorted _ _ _) i j vs).1 hd
  have e2 : ns = n.ident := by
    have : some (Json.str ns) = some (.str n.ident) := h2
    injection this with this
    injection this
  have e3 : tag = .str f.ident := by
    have : some (Json.str f.ident) = some tag := h3
    injection this with this
    exact this.symm
  have e5 : a = .arr js := by
    have : some (Json.arr js) = some a := h5
    injection this with this
    exact this.symm
  subst e5
  have hn := hname n (List.mem_of_getElem? h1)
  obtain ⟨fs, hfs, hall⟩ := hB.methods n (List.mem_of_getElem? h1)
  have em : f.ident = m.name := by
    rcases h4.2 with h | ⟨h, _⟩ <;> rw [e3] at h
    · injection h
    · cases h
  obtain ⟨f', hf', hmf, hrf⟩ := Zod.All2.mem_right hall (List.mem_of_getElem? h4.1)
  have : f' = f := by
    have hnd' := (List.nodup_append.1 hnd).2.1
    refine map_nodup_inj hnd' (List.mem_flatMap.2 ⟨_, List.mem_filter.2 ⟨hfs, ?_⟩, hf'⟩)
      (List.mem_flatMap.2 ⟨x, List.mem_filter.2 ⟨hx, ?_⟩, hf⟩) (hmf.1.symm.trans em.symm)
    · simp [hn, e2]
    · simpa using hxn
  subst this
  exact ⟨n, m, ⟨h1, h4.1⟩, hn.trans e2.symm, hmf, hrf, h6⟩

theorem lookup_method {S V : Type} {b : BackendDef S V} {c : Call V} {n : NamespaceDef S V} {m : MethodDef S V}
    (h : HasMethod b c.ns n c.method m) : b.lookup c = some m := by
  simp [BackendDef.lookup, h.1, h.2]

/-- What the method for a function returns, or yields as a stream, is of the type of the function. -/
theorem result_written {S V : Type} {P : Program} {odd : Bool} {b : BackendDef S V} {c : Call V} {n : NamespaceDef S V}
    {m : MethodDef S V} {f : RpcItem} (h : HasMethod b c.ns n c.method m) (hr : ResultFor P odd f m) (st : List S) (d : Json) :
    (b.service.isStream c = false → (b.service.runMethod st c).2 = .ok d → Written P odd f.output d) ∧
    (b.service.isStream c = true → ∀ k, (b.service.runStream st c).2 k = some (.ok d) → Written P odd f.output d) := by
  have hl := lookup_method h
  cases hr with
  | method run h1 h2 h3 =>
    refine ⟨fun _ hd => ?_, fun hs => ?_⟩
    · simp only [BackendDef.service, runMethod, hl] at hd
      split at hd
      · rename_i e s' e1 e2
        cases e1
        rw [h2] at hd
        exact h3 _ _ _ hd
      · cases hd
    · simp [BackendDef.service, isStreamCall, hl, h2] at hs
  | stream run h1 h2 h3 =>
    refine ⟨fun hs => ?_, fun _ k hd => ?_⟩
    · simp [BackendDef.service, isStreamCall, hl, h2] at hs
    · simp only [BackendDef.service, runStream, hl] at hd
      split at hd
      · rename_i e s' e1 e2
        cases e1
        rw [h2] at hd
        exact h3 _ _ _ _ hd
      · cases hd

/-- A function of the module is the stub of a function of the program. -/
theorem func_stub {P : Program} {impls : List (Str × List RpcItem)} {names : List Str} {M : List Ns} (h : ModuleOf P impls names M)
    {N : Ns} (hN : N ∈ M) {F : Fn} (hF : Item.func F ∈ N.items) :
    ∃ x ∈ impls, x.1 = N.name ∧ ∃ f ∈ x.2, StubItem P N.name f (.func F) := by
  obtain ⟨ds, fs, ls, is, _, e2, e3, e4, e5⟩ := h.items N hN
  rw [e5, List.mem_append] at hF
  rcases hF with hg | hg
  · obtain ⟨l, hl, hg⟩ := List.mem_flatten.1 hg
    obtain ⟨x, hx, s, e, t, T, j, _, _, _, _, hj, rfl⟩ := Zod.All2.mem_right e3 hl
    simp only [List.mem_cons, List.not_mem_nil, or_false] at hg
    rcases hg with hg | hg
    · cases hg
    · subst hg; cases hj
  · obtain ⟨f, hf, hs⟩ := Zod.All2.mem_right e4 hg
    obtain ⟨b, hb, hf⟩ := List.mem_flatMap.1 (e2.subset hf)
    obtain ⟨hb, e⟩ := List.mem_filter.1 hb
    exact ⟨b, hb, by simpa using e, f, hf, hs⟩

theorem append_last {α : Type} {l l' : List α} {a a' : α} (h : l ++ [a] = l' ++ [a']) : l = l' ∧ a = a' := by
  have h1 := congrArg List.getLast? h
  have h2 := congrArg List.dropLast h
  simp at h1 h2
  exact ⟨h2, h1⟩

/-- What the body of a stub transmits. -/
theorem stub_transmits {k : RpcKind} {ns name fn ns' m : Str} {ps : List (Str × TsType)} {es : List JsExpr} {T : TsType}
    (h : Transmits (stub k ns name ps es T) fn ns' m) : ns' = ns ∧ m = name := by
  obtain ⟨ss, h⟩ := h
  have h : (ps.map (fun p => Stmt.expr (.var p.1)) ++ [.expr (validation es)]) ++ [.ret (transmission k ns name)] =
      ss ++ [.ret (.call (.var fn) [.str ns', .str m, .var (lit "arguments")])] := by
    rw [← h, List.append_assoc]; rfl
  have := (append_last h).2
  simp only [transmission, Stmt.ret.injEq, JsExpr.call.injEq, List.cons.injEq, JsExpr.str.injEq, and_true] at this
  exact ⟨this.2.1.symm, this.2.2.symm⟩

/-- **C60.** The property holds if the namespaces are not renamed (C27), the namespaces of all types belong to the backend
(C21), and the types of the program and of the function's result are those for which C51 holds. -/
theorem C60_partial (P : Program) (impls : List (Str × List RpcItem)) (r : Registry) (odd lenient : Bool)
    {S V : Type} (b : BackendDef S V) (M : List Ns) (hp : Printable P impls) (hm : Codegen.IsModule P impls r)
    (hB : BackendFor P odd impls b) (hw : Writes r (backendNames b) M) (hc : NoClash M)
    (hname : ∀ n ∈ b.fields, n.nsName = n.ident) (hns : ∀ d ∈ P, d.ns ∈ backendNames b)
    (hf : NoFlattenedUnion P) (hT : ∀ d ∈ P, TypedDecl P odd lenient d)
    (N : Ns) (hN : N ∈ M) (F : Fn) (hF : Item.func F ∈ N.items)
    (ht : ∀ x ∈ impls, x.1 = N.name → ∀ f ∈ x.2, f.ident = F.name → Typed odd f.output)
    (T : TsType) (st : List S) (d : Json) (hd : Received b.service st F T d) :
    Inhabits (moduleTypes M) lenient T (fromJson d) := by
  obtain ⟨M', hM', hmo⟩ := writes_of hp hm (backendNames b)
  have := writes_unique hw hM'
  subst this
  have hD := types_of_module hmo hc hns
  obtain ⟨x, hx, hxn, f, hfx, ps, es, t, T', h1, h2, h3, h4, h5⟩ := func_stub hmo hN hF
  injection h5 with h5
  have hnd := (no_clash_iff hmo).1 hc N.name ((hmo.names N.name).1 (List.mem_map.2 ⟨N, hN, rfl⟩)).1
  have key : ∀ {id : Nat} {a : List Json} {st' : List S},
      (SystemSpec.Returns b.service st' (requestOf id N.name f.ident a) d ∨
        ∃ items n, Streams b.service st' (requestOf id N.name f.ident a) items ∧ items n = some (.ok d)) →
      Inhabits (moduleTypes M) lenient T' (fromJson d) := by
    intro id a st' hres
    have hw : Written P odd f.output d := by
      rcases hres with ⟨_, v, call, e, hdec, hs, hrun⟩ | ⟨items, k, ⟨_, v, call, e, hdec, hs, hrun⟩, hk⟩
      · injection e with e
        injection e with _ e
        subst e
        obtain ⟨n, m, g1, _, _, g4, _⟩ := method_of_call hB hname hnd hx hxn hfx hdec
        exact (result_written g1 g4 st' d).1 hs hrun
      · injection e with e
        injection e with _ e
        subst e
        obtain ⟨n, m, g1, _, _, g4, _⟩ := method_of_call hB hname hnd hx hxn hfx hdec
        exact (result_written g1 g4 st' d).2 hs k (by rw [hrun]; exact hk)
    obtain ⟨j, hj, hdk, rfl⟩ := hw
    refine inhabits_value ?_ j rfl hdk
    exact C51_partial P odd lenient hp.names hp.typeNames hp.styled hp.plain hf hT _ hD .typeDef (Or.inl rfl) f.output
      (ht x hx hxn f hfx (by rw [h5]; rfl)) t T' h3 h4 j hdk hj
  have hret : ∀ {c : Str}, F.ret = .app [c] [T] → T = T' := by
    intro c e
    rw [h5] at e
    have e : TsType.app [container f.kind] [T'] = .app [c] [T] := e
    injection e with _ e
    injection e with e
    exact e.symm
  cases hd with
  | promise ns m i a s₁ s₂ s ls e1 e2 e3 e4 e5 e6 e7 =>
    rw [hret e1]
    rw [h5] at e2
    obtain ⟨rfl, rfl⟩ := stub_transmits e2
    obtain ⟨c, k, before, after, _, _, hres⟩ := (C49_value e3 e4 e5 e6).2 d e7
    exact key hres
  | store ns m i a s₁ s₂ s₃ s₄ s ls ls' e1 e2 e3 e4 e5 e6 e7 e8 e9 =>
    rw [hret e1]
    rw [h5] at e2
    obtain ⟨rfl, rfl⟩ := stub_transmits e2
    obtain ⟨c, k, before, after, _, _, hres⟩ := C49_stream_later e3 e4 e5 e6 e7 e8 d e9
    exact key hres

theorem small_id {n l : Nat} (h : n = min l (2 ^ 53)) : n < 2 ^ 64 := by omega

/-- A call of a stub that passes validation: the method it is for, what its decoders make of the arguments, and what the server
decodes. -/
theorem stub_delivers {P : Program} {impls : List (Str × List RpcItem)} {r : Registry} {wide odd : Bool}
    {S V : Type} {b : BackendDef S V} {M : List Ns} (hp : Printable P impls) (hm : Codegen.IsModule P impls r)
    (hB : BackendFor P odd impls b) (hw : Writes r (backendNames b) M) (hc : NoClash M)
    (hname : ∀ n ∈ b.fields, n.nsName = n.ident) (hns : ∀ d ∈ P, d.ns ∈ backendNames b) (hone : (impls.map (·.1)).Nodup)
    (hS : ∀ d ∈ P, SoundDecl wide P d) (hlax : Lax P)
    {N : Ns} (hN : N ∈ M) {F : Fn} (hF : Item.func F ∈ N.items)
    (ht : ∀ x ∈ impls, x.1 = N.name → ∀ f ∈ x.2, f.ident = F.name → f.args ≠ [] ∧ ∀ a ∈ f.args, Sound wide P a.2)
    {fname : Str} {ss : List Stmt} {es : List JsExpr} {ns m : Str} (hbody : F.body = ss ++ [.expr (validation es),
      .ret (.call (.var fname) [.str ns, .str m, .var (lit "arguments")])])
    {zs : List ZSchema} (hzs : All2 (fun e z => evalE e = some (.schema z)) es zs)
    {l : List JsVal} {res : JsVal} (hval : ParsesTo (moduleSchemas M) (.tuple zs) (.arr l) res)
    (hprop : properJs (.arr l) = true) (hplain : plainJs wide (.arr l) = true) (hkept : Kept (.arr l) res)
    {js : List Json} (hjs : stringify (.arr l) = some (some (.arr js))) :
    ns = N.name ∧ m = F.name ∧ ∃ im nd jm md vs, ∃ f : RpcItem, (f.kind = .method ↔ fname = lit "request") ∧ HasMethod b im nd jm md ∧
      nd.nsName = N.name ∧ md.name = F.name ∧ ResultFor P odd f md ∧ ArgsDecode md.args (js.map Json.toValue) vs ∧
      b.lookup (⟨im, jm, vs⟩ : Call V) = some md ∧
      b.service.decode (callValue N.name F.name (js.map Json.toValue)) = .ok (⟨im, jm, vs⟩ : Call V) := by
  obtain ⟨M', hM', hmo⟩ := writes_of hp hm (backendNames b)
  have := writes_unique hw hM'
  subst this
  have hE := schemas_of_module hmo hc hns
  obtain ⟨x, hx, hxn, f, hfx, ps, es', t, T', h1, h2, h3, h4, h5⟩ := func_stub hmo hN hF
  injection h5 with h5
  -- the body is that of the stub
  have hfb : (ps.map (fun p => Stmt.expr (.var p.1)) ++ [.expr (validation es')]) ++ [.ret (transmission f.kind N.name f.ident)] =
      (ss ++ [.expr (validation es)]) ++ [.ret (.call (.var fname) [.str ns, .str m, .var (lit "arguments")])] := by
    rw [h5] at hbody
    rw [List.append_assoc, List.append_assoc]
    exact hbody
  obtain ⟨hb1, hb2⟩ := append_last hfb
  have hb1 := (append_last hb1).2
  simp only [transmission, Stmt.ret.injEq, JsExpr.call.injEq, List.cons.injEq, JsExpr.str.injEq, JsExpr.var.injEq, and_true] at hb2
  simp only [validation, Stmt.expr.injEq, JsExpr.call.injEq, JsExpr.member.injEq, List.cons.injEq, JsExpr.arr.injEq, and_true,
    true_and] at hb1
  obtain ⟨hk, rfl, rfl⟩ := hb2
  subst hb1
  have hkind : f.kind = .method ↔ fname = lit "request" := by
    rw [← hk]
    cases f.kind <;> decide
  have hfn : f.ident = F.name := by rw [h5]; rfl
  obtain ⟨hne, hsa⟩ := ht x hx hxn f hfx hfn
  -- the method
  obtain ⟨nd, hnd, end'⟩ := List.mem_map.1 ((hmo.names N.name).1 (List.mem_map.2 ⟨N, hN, rfl⟩)).1
  obtain ⟨im, him⟩ := List.getElem?_of_mem hnd
  obtain ⟨fs, hfs, hall⟩ := hB.methods nd hnd
  have hxe : x = (nd.nsName, fs) := map_nodup_inj hone hx hfs (by rw [hxn]; exact end'.symm)
  subst hxe
  obtain ⟨md, hmd, hmf, hrf⟩ := Zod.All2.mem_left hall hfx
  obtain ⟨jm, hjm⟩ := List.getElem?_of_mem hmd
  have hhas : HasMethod b im nd jm md := ⟨him, hjm⟩
  have hid : 0 < 2 ^ 64 := by decide
  obtain ⟨vs, js', value, g1, g2, g3, g4⟩ := C57_partial wide P _ hp.names hp.styled hp.plain hS hlax hE f hsa hne es' zs h2 hzs
    hB.wellFormed hhas hmf (hname nd hnd) l res hval hprop hplain hkept hid
  have : js' = js := by
    have e := hjs.symm.trans g1
    exact (Json.arr.inj (Option.some.inj (Option.some.inj e))).symm
  subst this
  have hv : value = callValue nd.nsName f.ident (js'.map Json.toValue) := by
    have e := Except.ok.inj (g2.symm.trans (C23_client_message _ nd.nsName f.ident js' hid))
    injection e with _ e
  rw [hv, end', hfn] at g4
  exact ⟨rfl, hfn, im, nd, jm, md, vs, f, hkind, hhas, end', hmf.1.trans hfn, hrf, g3, lookup_method hhas, g4⟩

/-- What the method returns is what the call returns. -/
theorem method_returns {S V : Type} {b : BackendDef S V} {im jm : Nat} {vs : List V} {md : MethodDef S V}
    {fn : S → List V → S × Except SerdeErr Json} (hbody : md.body = .method fn)
    (hlook : b.lookup (⟨im, jm, vs⟩ : Call V) = some md) {ns m : Str} {js : List Json}
    (hdec : b.service.decode (callValue ns m (js.map Json.toValue)) = .ok (⟨im, jm, vs⟩ : Call V)) {z : List S} {y : S}
    (hy : z[im]? = some y) {d : Json} (hd : (fn y vs).2 = .ok d) (id : Nat) :
    SystemSpec.Returns b.service z (requestOf id ns m js) d := by
  refine ⟨_, _, _, rfl, hdec, ?_, ?_⟩
  · simp [BackendDef.service, isStreamCall, hlook, hbody]
  · show (runMethod b z ⟨im, jm, vs⟩).2 = .ok d
    simp [runMethod, hlook, hy, hbody, hd]

/-- **C60, complete calls.** Under the same hypotheses and those of C57 for the arguments: if validation accepts the
arguments `l` of a call of a client function for a method, the history is without network failures and no close event of an old
socket meets a new one (C49), and nothing is under way any more, then the server has executed the method of the
function once, with what its decoders make of the arguments, and the promise has resolved with what the method
returned, a value of the declared type. -/
theorem C60_call_partial (P : Program) (impls : List (Str × List RpcItem)) (r : Registry) (wide odd lenient : Bool)
    {S V : Type} (b : BackendDef S V) (M : List Ns) (hp : Printable P impls) (hm : Codegen.IsModule P impls r)
    (hB : BackendFor P odd impls b) (hw : Writes r (backendNames b) M) (hc : NoClash M)
    (hname : ∀ n ∈ b.fields, n.nsName = n.ident) (hns : ∀ d ∈ P, d.ns ∈ backendNames b) (hone : (impls.map (·.1)).Nodup)
    (hf : NoFlattenedUnion P) (hT : ∀ d ∈ P, TypedDecl P odd lenient d) (hS : ∀ d ∈ P, SoundDecl wide P d) (hlax : Lax P)
    (N : Ns) (hN : N ∈ M) (F : Fn) (hF : Item.func F ∈ N.items)
    (ht : ∀ x ∈ impls, x.1 = N.name → ∀ f ∈ x.2, f.ident = F.name →
      Typed odd f.output ∧ f.args ≠ [] ∧ ∀ a ∈ f.args, Sound wide P a.2)
    (T : TsType) (hret : F.ret = .app [lit "Promise"] [T])
    -- the body of the function
    (ss : List Stmt) (es : List JsExpr) (ns m : Str) (hbody : F.body = ss ++ [.expr (validation es),
      .ret (.call (.var (lit "request")) [.str ns, .str m, .var (lit "arguments")])])
    -- validation accepts the arguments
    (zs : List ZSchema) (hzs : All2 (fun e z => evalE e = some (.schema z)) es zs)
    (l : List JsVal) (res : JsVal) (hval : ParsesTo (moduleSchemas M) (.tuple zs) (.arr l) res)
    (hprop : properJs (.arr l) = true) (hplain : plainJs wide (.arr l) = true) (hkept : Kept (.arr l) res)
    (js : List Json) (hjs : stringify (.arr l) = some (some (.arr js)))
    -- the history
    {st : List S} {s₁ s₂ s : State (List S) (Call V)} {i k c : Nat} {ls₁ ls₂ : List Label}
    (h₁ : run b.service (System.init st) ls₁ = some s₁)
    (hcall : step b.service s₁ (.client i (.request ns m js)) = some s₂) (hrun : run b.service s₂ ls₂ = some s)
    (hcalm : Calm b.service (System.init st) (ls₁ ++ .client i (.request ns m js) :: ls₂))
    (hn : (s.clients i).calls.length ≤ 2 ^ 53)
    (hsent : (k, lastMessage s₂ i ns m js) ∈ (s.clients i).sent) (ho : s.owner c = some (i, k)) (hq : Quiet s i c) :
    ∃ im nd jm md fn vs before after, HasMethod b im nd jm md ∧ nd.nsName = N.name ∧ md.name = F.name ∧
      md.body = .method fn ∧ ArgsDecode md.args (js.map Json.toValue) vs ∧
      s.server.log = before ++ (c, lastRequest s₂ i ns m js) :: after ∧
      ∀ x, (replay b.service st before)[im]? = some x → ∀ d, (fn x vs).2 = .ok d →
        promise s₁ i s = [d] ∧ Inhabits (moduleTypes M) lenient T (fromJson d) := by
  obtain ⟨rfl, rfl, im, nd, jm, md, vs, f, hkind, hhas, end', hname', hrf, g3, hlook, g4⟩ := stub_delivers hp hm hB hw hc hname hns hone hS
    hlax hN hF (fun x hx e f hf e' => (ht x hx e f hf e').2) hbody hzs hval hprop hplain hkept hjs
  obtain ⟨before, after, hl, hres⟩ := C49_partial_quiet h₁ hcall hrun hcalm hn hsent ho hq
  cases hrf with
  | stream fn e1 => rw [hkind.2 rfl] at e1; cases e1
  | method fn e1 e2 e3 =>
    refine ⟨im, nd, jm, md, fn, vs, before, after, hhas, end', hname', e2, g3, hl, fun y hy d hd => ?_⟩
    have hprom := hres d (method_returns e2 hlook g4 hy hd _)
    refine ⟨hprom, ?_⟩
    refine C60_partial P impls r odd lenient b M hp hm hB hw hc hname hns hf hT N hN F hF
      (fun x hx hxn f hf e => (ht x hx hxn f hf e).1) T st d ?_
    refine .promise N.name F.name i js s₁ s₂ s ls₂ hret ⟨ss ++ [.expr (validation es)], ?_⟩ ⟨_, h₁⟩ hcall hrun hn (by rw [hprom]; simp)
    rw [hbody, List.append_assoc]
    rfl

/-! ## A case that is covered -/

/-- `struct Ns.User { id: u32, name: String }` -/
def exHub : Program := [.struct (exStruct "User" [exField "id" (.prim .u32), exField "name" (.prim .string)])]

/-- `async fn find(&mut self, id: u32) -> User` and `fn watch(&mut self, id: u32) -> impl Stream<Item = User>` of `Ns`. -/
def exFind : RpcItem := ⟨lit "find", [(lit "id", .prim .u32)], .method, .named 0, false⟩
def exWatch : RpcItem := ⟨lit "watch", [(lit "id", .prim .u32)], .stream, .named 0, true⟩
def exHubImpls : List (Str × List RpcItem) := [(lit "Ns", [exFind, exWatch])]

/-- `Deserialize` of `u32`. -/
def decodeU32 : Json → Option UInt32
  | .num (.int n) => if 0 ≤ n ∧ n < 2 ^ 32 then some (UInt32.ofNat n.toNat) else none
  | _ => none

/-- The user with this id. -/
def userDoc (n : UInt32) : Json := .obj [(lit "id", .num (.int n.toNat)), (lit "name", .str (lit "ann"))]

def exHubNs : NamespaceDef Nat UInt32 where
  ident := lit "Ns"
  nsName := lit "Ns"
  methods := [
    { name := lit "find", args := [decodeU32], body := .method fun s a => (s + 1, .ok (userDoc (a.headD 0))) },
    { name := lit "watch", args := [decodeU32], body := .stream fun s a => (s, fun _ => some (.ok (userDoc (a.headD 0)))) } ]

def exHubBackend : BackendDef Nat UInt32 := ⟨[exHubNs]⟩

theorem decodeU32_of {P : Program} {j : Json} (h : De P (.prim .u32) j) : ∃ v, decodeU32 j = some v := by
  cases h with
  | int _ lo hi i h1 h2 h3 =>
    have e : some ((0 : Int), (4294967295 : Int)) = some (lo, hi) := h1
    injection e with e
    injection e with e1 e2
    subst e1 e2
    exact ⟨_, if_pos ⟨h2, by omega⟩⟩
  | wide _ _ _ _ h => simp at h
  | float _ _ h => simp at h
  | ipv4 _ _ _ _ _ h => simp at h
  | ipv6 _ _ h => simp at h

theorem userDoc_written (n : UInt32) : Written exHub false (.named 0) (userDoc n) := by
  refine ⟨userDoc n, ?_, ?_, rfl⟩
  · refine .struct 0 _ _ rfl rfl rfl (.named _ _ ?_)
    exact .field (exField "id" (.prim .u32)) _ _ (.num (.int n.toNat)) rfl rfl rfl
      (.int _ 0 4294967295 n.toNat (Or.inl rfl) (by omega) (by have := n.toNat_lt; omega))
      (.field (exField "name" (.prim .string)) _ _ (.str (lit "ann")) rfl rfl rfl (.string _) .nil)
  · refine .obj _ (show [lit "id", lit "name"].Nodup by decide) ?_
    exact forall_two (.num _) (.str _)

theorem exHub_backend : BackendFor exHub false exHubImpls exHubBackend := by
  refine ⟨⟨by simp [exHubBackend], forall_one (by decide +kernel)⟩, forall_one ⟨_, List.mem_singleton.2 rfl, ?_⟩⟩
  refine .cons ⟨⟨rfl, .cons (fun _ h => decodeU32_of h) .nil⟩, ?_⟩
    (.cons ⟨⟨rfl, .cons (fun _ h => decodeU32_of h) .nil⟩, ?_⟩ .nil)
  · refine .method _ rfl rfl (fun s vs d h => ?_)
    injection h with h
    subst h
    exact userDoc_written _
  · refine .stream _ rfl rfl (fun s vs n d h => ?_)
    injection h with h
    injection h with h
    subst h
    exact userDoc_written _

theorem exHub_printable : Printable exHub exHubImpls where
  names := forall_one (by decide +kernel)
  typeNames := forall_one (by decide +kernel)
  styled := forall_one (by decide +kernel)
  plain := forall_one (by simp [Plain, exStruct])
  declarable := forall_one (by decide +kernel)
  interfaces := no_broken (by
      intro i s hi
      match i, hi with
      | 0, hi => injection hi with hi; injection hi with hi; subst hi; simp [exStruct, exField]
      | i + 1, hi => simp [exHub] at hi) (by
      intro i e hi
      match i, hi with
      | 0, hi => injection hi with hi; cases hi
      | i + 1, hi => simp [exHub] at hi)
  docs := forall_one (by intro s hs; cases hs)
  rpcNames := forall_one (by decide +kernel)
  functions := forall_one (forall_two (goodFn_of (by decide +kernel)) (goodFn_of (by decide +kernel)))

theorem exHub_isModule : Codegen.IsModule exHub exHubImpls (mkRegistry exHub exHubImpls 9) :=
  mkRegistry_isModule (by decide +kernel)

theorem exHub_noClash : ∃ M, Writes (mkRegistry exHub exHubImpls 9) (backendNames exHubBackend) M ∧ NoClash M :=
  (C55_exact _ _ _ _ exHub_printable exHub_isModule).2 (by decide +kernel)

theorem exHub_typed (lenient : Bool) : ∀ d ∈ exHub, TypedDecl exHub false lenient d := by
  refine forall_one ⟨rfl, ?_⟩
  show ∀ f ∈ [exField "id" (.prim .u32), exField "name" (.prim .string)], TypedField exHub false lenient _ f
  exact forall_two (.inr (.inl ⟨rfl, rfl, rfl, rfl, rfl, .prim _ (fun _ => rfl)⟩)) (.inr (.inl ⟨rfl, rfl, rfl, rfl, rfl, .prim _ (fun _ => rfl)⟩))

theorem exHub_sound : ∀ d ∈ exHub, SoundDecl false exHub d := by
  refine forall_one ⟨by decide, ?_, ?_⟩
  · show ∀ f ∈ [exField "id" (.prim .u32), exField "name" (.prim .string)], _
    exact forall_two ⟨rfl, .prim _ rfl, .inr (.inl (.prim _)), nofun⟩ ⟨rfl, .prim _ rfl, .inr (.inl (.prim _)), nofun⟩
  · exact forall_two (p := fun f : Field => f.flatten = false) rfl rfl

theorem exHub_noUnion : NoFlattenedUnion exHub := by
  intro s hs _ f hf _ hfl
  rw [exHub, List.mem_singleton] at hs
  injection hs with hs
  subst hs
  simp only [exStruct, List.mem_cons, List.not_mem_nil, or_false] at hf
  rcases hf with rfl | rfl <;> cases hfl

def exFindCall : Label := .client 0 (.request (lit "Ns") (lit "find") [.num (.int 7)])
def exWatchCall : Label := .client 0 (.subscribe (lit "Ns") (lit "watch") [.num (.int 7)])

/-- The call of `find` is executed, and its promise resolves. -/
def exFindRun : List Label :=
  [.accept 0 0, .opened 0, .deliver 0, .server .take, .server .methodDone, .server (.flush 0), .respond 0,
    .client 0 .visit, .client 0 .visit]

/-- The first item of the stream is produced before a callback is given to the store, the second after. -/
def exWatchRun : List Label :=
  [.accept 0 0, .opened 0, .deliver 0, .server .take, .server (.poll 0), .server (.item 0), .server (.flush 0), .respond 0,
    .client 0 .visit]
def exWatchRun' : List Label := [.server (.item 0), .server (.flush 0), .respond 0, .client 0 .visit]

/-- Is the document the user with this id? -/
def isUser (n : UInt32) : Json → Bool
  | .obj [(a, .num (.int i)), (b, .str c)] => a == lit "id" && i == n.toNat && b == lit "name" && c == lit "ann"
  | _ => false

theorem isUser_eq {n : UInt32} {j : Json} (h : isUser n j = true) : j = userDoc n := by
  unfold isUser at h
  split at h
  · simp only [Bool.and_eq_true, beq_iff_eq] at h
    obtain ⟨⟨⟨rfl, rfl⟩, rfl⟩, rfl⟩ := h
    rfl
  · cases h

def areUsers (n : UInt32) : List Json → Bool
  | [] => true
  | j :: l => isUser n j && areUsers n l

theorem one_user {n : UInt32} {l : List Json} (h : (l.length == 1 && areUsers n l) = true) : l = [userDoc n] := by
  match l, h with
  | [j], h =>
    simp only [areUsers, Bool.and_eq_true, Bool.and_true] at h
    rw [isUser_eq h.2]

/-- The example of C60 and of its history. -/
theorem find_history : ∃ s₁ s₂ s, run exHubBackend.service (System.init [0]) [] = some s₁ ∧
    step exHubBackend.service s₁ exFindCall = some s₂ ∧ run exHubBackend.service s₂ exFindRun = some s ∧
    promise s₁ 0 s = [userDoc 7] ∧ (s.clients 0).calls.length ≤ 2 ^ 53 ∧ s.owner 0 = some (0, 0) ∧ Quiet s 0 0 ∧
    (0, lastMessage s₂ 0 (lit "Ns") (lit "find") [.num (.int 7)]) ∈ (s.clients 0).sent := by
  obtain ⟨s₁, s₂, s, h1, h2, h3, hck⟩ := runTwo_sound (sv := exHubBackend.service) (b := [0]) (ls₁ := []) (l := exFindCall)
    (ls₂ := exFindRun) (check := fun s₁ s₂ s => ((promise s₁ 0 s).length == 1 && areUsers 7 (promise s₁ 0 s)) &&
      decide ((s.clients 0).calls.length ≤ 2 ^ 53) && (s.owner 0 == some (0, 0)) && quietB s 0 0 0 &&
      ((s.clients 0).sent.map (fun p => (p.1, p.2.id)) == [(0, (s₂.clients 0).reqId)])) (by decide +kernel)
  simp only [Bool.and_eq_true, decide_eq_true_eq] at hck
  obtain ⟨⟨⟨⟨⟨c1, c1'⟩, c2⟩, c3⟩, c4⟩, c5⟩ := hck
  have c3 := beq_iff_eq.1 c3
  have c5 := beq_iff_eq.1 c5
  refine ⟨s₁, s₂, s, h1, h2, h3, one_user (by rw [c1, c1']; rfl), c2, c3, quietB_sound c3 c4, ?_⟩
  have hr1 : Reachable exHubBackend.service [0] s₁ := ⟨_, h1⟩
  have hr := (hr1.step h2).run h3
  have hM := (request_made hr1 h2 (Nat.le_trans (run_clients h3 0).length_le c2)).later h3
  have : ((0, (s₂.clients 0).reqId) : Nat × Nat) ∈ (s.clients 0).sent.map (fun p => (p.1, p.2.id)) := by rw [c5]; simp
  obtain ⟨⟨k, m'⟩, hm, e⟩ := List.mem_map.1 this
  simp only [Prod.mk.injEq] at e
  obtain ⟨rfl, e⟩ := e
  have := call_unique (hr.client 0) c2 (sent_calls (hr.client 0) hm) hM.call e
  rw [← this]; exact hm

/-- A case of C60: `find(7)` resolves with the user, which is a value of the declared type. -/
example : ∃ M N F T, Writes (mkRegistry exHub exHubImpls 9) (backendNames exHubBackend) M ∧ N ∈ M ∧ Item.func F ∈ N.items ∧
    Received exHubBackend.service [0] F T (userDoc 7) ∧ Inhabits (moduleTypes M) false T (fromJson (userDoc 7)) := by
  obtain ⟨M, hw, hc⟩ := exHub_noClash
  obtain ⟨M', hw', hmo⟩ := writes_of exHub_printable exHub_isModule (backendNames exHubBackend)
  have := writes_unique hw hw'
  subst this
  obtain ⟨N, hN, e, i, hi, ps, es, t, T, h1, h2, h3, h4, rfl⟩ := stub_mem hmo (b := (lit "Ns", [exFind, exWatch])) (List.mem_singleton.2 rfl)
    (by decide +kernel) (f := exFind) List.mem_cons_self
  obtain ⟨s₁, s₂, s, g1, g2, g3, g4, g5, _⟩ := find_history
  have hrec : Received exHubBackend.service [0] (stub exFind.kind (lit "Ns") exFind.ident ps es T) T (userDoc 7) :=
    .promise (lit "Ns") (lit "find") 0 _ s₁ s₂ s exFindRun rfl
      ⟨ps.map (fun p => .expr (.var p.1)) ++ [.expr (validation es)], by rw [List.append_assoc]; rfl⟩ ⟨_, g1⟩ g2 g3 g5
      (by rw [g4]; exact List.mem_singleton.2 rfl)
  refine ⟨M, N, _, T, hw, hN, hi, hrec, ?_⟩
  exact C60_partial exHub exHubImpls _ false false exHubBackend M exHub_printable exHub_isModule exHub_backend hw hc
    (forall_one rfl) (forall_one (by decide +kernel)) exHub_noUnion (exHub_typed false) N hN _ hi
    (forall_one (fun _ => forall_two (fun _ => .named 0) (fun _ => .named 0))) T [0] _ hrec

theorem watch_history : ∃ s₁ s₂ s₃ s₄ s, run exHubBackend.service (System.init [0]) [] = some s₁ ∧
    step exHubBackend.service s₁ exWatchCall = some s₂ ∧ run exHubBackend.service s₂ exWatchRun = some s₃ ∧
    step exHubBackend.service s₃ (.client 0 (.attach (s₂.clients 0).reqId)) = some s₄ ∧
    run exHubBackend.service s₄ exWatchRun' = some s ∧ (s.clients 0).calls.length ≤ 2 ^ 53 ∧
    calledWith s₃ 0 s = [userDoc 7] := by
  obtain ⟨s₁, s₂, s₃, h1, h2, h3, hck⟩ := runTwo_sound (sv := exHubBackend.service) (b := [0]) (ls₁ := []) (l := exWatchCall)
    (ls₂ := exWatchRun) (check := fun s₁ s₂ s₃ => match step exHubBackend.service s₃ (.client 0 (.attach (s₂.clients 0).reqId)) with
      | some s₄ => match run exHubBackend.service s₄ exWatchRun' with
        | some s => decide ((s.clients 0).calls.length ≤ 2 ^ 53) &&
          ((calledWith s₃ 0 s).length == 1 && areUsers 7 (calledWith s₃ 0 s))
        | none => false
      | none => false) (by decide +kernel)
  split at hck
  · rename_i s₄ h4
    split at hck
    · rename_i s h5
      rw [Bool.and_eq_true, decide_eq_true_eq] at hck
      exact ⟨s₁, s₂, s₃, s₄, s, h1, h2, h3, h4, h5, hck.1, one_user hck.2⟩
    · cases hck
  · cases hck

/-- The same for a stream: the callback given to the store is called with the second item. -/
example : ∃ M N F T, Writes (mkRegistry exHub exHubImpls 9) (backendNames exHubBackend) M ∧ N ∈ M ∧ Item.func F ∈ N.items ∧
    F.name = lit "watch" ∧ F.ret = .app [lit "Store"] [T] ∧ Received exHubBackend.service [0] F T (userDoc 7) := by
  obtain ⟨M, hw, hmo⟩ := writes_of exHub_printable exHub_isModule (backendNames exHubBackend)
  obtain ⟨N, hN, e, i, hi, ps, es, t, T, h1, h2, h3, h4, rfl⟩ := stub_mem hmo (b := (lit "Ns", [exFind, exWatch])) (List.mem_singleton.2 rfl)
    (by decide +kernel) (f := exWatch) (List.mem_cons_of_mem _ List.mem_cons_self)
  obtain ⟨s₁, s₂, s₃, s₄, s, g1, g2, g3, g4, g5, g6, g7⟩ := watch_history
  exact ⟨M, N, _, T, hw, hN, hi, rfl, rfl, .store (lit "Ns") (lit "watch") 0 _ s₁ s₂ s₃ s₄ s exWatchRun exWatchRun' rfl
    ⟨ps.map (fun p => .expr (.var p.1)) ++ [.expr (validation es)], by rw [List.append_assoc]; rfl⟩ ⟨_, g1⟩ g2 g3 g4 g5 g6
    (by rw [g7]; exact List.mem_singleton.2 rfl)⟩

/-- The schema of a `u32` argument. -/
theorem exFind_schema : ∃ e z, SchemaOf exHub (lit "id", .prim .u32) e ∧ evalE e = some (.schema z) ∧
    ∀ E, ParsesTo E (.tuple [z]) (.arr [.num (.fin (7 : Int))]) (.arr [.num (.fin (7 : Int))]) := by
  refine ⟨?e, ?z, ⟨?s, ⟨4, ?h⟩, ?g⟩, ?j, ?k⟩
  case h => rfl
  case g => rfl
  case j => rfl
  case k => exact fun _ => ⟨12, rfl⟩

/-- A case of the theorem about complete calls: `find(7)`. -/
example : ∃ M s₁ s₂ s, ∃ (fn : Nat → List UInt32 → Nat × Except SerdeErr Json), ∃ before after, Writes (mkRegistry exHub exHubImpls 9) (backendNames exHubBackend) M ∧
    run exHubBackend.service (System.init [0]) [] = some s₁ ∧ step exHubBackend.service s₁ exFindCall = some s₂ ∧
    run exHubBackend.service s₂ exFindRun = some s ∧
    s.server.log = before ++ (0, lastRequest s₂ 0 (lit "Ns") (lit "find") [.num (.int 7)]) :: after ∧
    ∃ (im : Nat), ∃ vs, ∀ x, (replay exHubBackend.service [0] before)[im]? = some x → ∀ d, (fn x vs).2 = .ok d → promise s₁ 0 s = [d] := by
  obtain ⟨M, hw, hc⟩ := exHub_noClash
  obtain ⟨M', hw', hmo⟩ := writes_of exHub_printable exHub_isModule (backendNames exHubBackend)
  have := writes_unique hw hw'
  subst this
  obtain ⟨N, hN, eN, i, hi, ps, es, t, T, h1, h2, h3, h4, rfl⟩ := stub_mem hmo (b := (lit "Ns", [exFind, exWatch])) (List.mem_singleton.2 rfl)
    (by decide +kernel) (f := exFind) List.mem_cons_self
  obtain ⟨e, z, he, hz, hpz⟩ := exFind_schema
  have hes : es = [e] := by
    match es, h2 with
    | [e'], .cons ⟨x, hx, hx'⟩ .nil =>
      obtain ⟨y, hy, hy'⟩ := he
      have e0 := Schema.returns_unique hx hy
      subst e0
      rw [hx'] at hy'
      injection hy' with hy'
      rw [hy']
  subst hes
  obtain ⟨s₁, s₂, s, g1, g2, g3, g4, g5, g6, g7, g8⟩ := find_history
  obtain ⟨im, nd, jm, md, fn, vs, before, after, _, _, _, _, _, hl, hall⟩ := C60_call_partial exHub exHubImpls _ false false false exHubBackend M
    exHub_printable exHub_isModule exHub_backend hw hc (forall_one rfl) (forall_one (by decide +kernel)) (by decide +kernel)
    exHub_noUnion (exHub_typed false) exHub_sound (forall_one ⟨rfl, forall_two rfl rfl⟩) N hN _ hi (by
      refine forall_one (fun _ => forall_two (fun _ => ⟨.named 0, by simp [exFind], forall_one (.prim _ rfl)⟩)
        (fun e => absurd (show lit "watch" = lit "find" from e) (by decide +kernel))))
    T rfl (ps.map (fun p => .expr (.var p.1))) [e] (lit "Ns") (lit "find") (by rfl) [z]
    (.cons hz .nil) [.num (.fin (7 : Int))] _ (hpz _) (by decide +kernel) (by decide +kernel)
    (.arr _ _ (.cons (.leaf _ (fun _ h => nomatch h) (fun _ h => nomatch h)) .nil)) [.num (.int 7)] (by rfl) g1 g2 g3
    (calmB_sound _ _ _ (by decide +kernel)) g5 g8 g6 g7
  exact ⟨M, s₁, s₂, s, fn, before, after, hw, g1, g2, g3, hl, im, vs, fun x hx d hd => (hall x hx d hd).1⟩

/-! ## What is missing -/

/-- `async fn peek(&mut self, x: u8) -> Option<String>` of `Api`, which returns `None`. -/
def exPeek : RpcItem := ⟨lit "peek", [(lit "x", .prim .u8)], .method, .option (.prim .string), false⟩
def exPeekImpls : List (Str × List RpcItem) := [(lit "Api", [exPeek])]
def exPeekNs : NamespaceDef Nat Unit where
  ident := lit "Api"
  nsName := lit "Api"
  methods := [{ name := lit "peek", args := [fun _ => some ()], body := .method fun s _ => (s, .ok .null) }]
def exPeekBackend : BackendDef Nat Unit := ⟨[exPeekNs]⟩

theorem exPeek_backend (odd : Bool) : BackendFor [] odd exPeekImpls exPeekBackend := by
  refine ⟨⟨by simp [exPeekBackend], forall_one (by decide +kernel)⟩, forall_one ⟨_, List.mem_singleton.2 rfl, ?_⟩⟩
  refine .cons ⟨⟨rfl, .cons (fun _ _ => ⟨(), rfl⟩) .nil⟩, ?_⟩ .nil
  refine .method _ rfl rfl (fun s vs d h => ?_)
  injection h with h
  subst h
  exact ⟨.null, .none _, .null, rfl⟩

theorem exPeek_printable : Printable [] exPeekImpls where
  names := fun _ h => nomatch h
  typeNames := fun _ h => nomatch h
  styled := fun _ h => nomatch h
  plain := fun _ h => nomatch h
  declarable := fun _ h => nomatch h
  interfaces := no_broken (fun i s hi => by simp at hi) (fun i e hi => by simp at hi)
  docs := fun _ h => nomatch h
  rpcNames := forall_one (by decide +kernel)
  functions := forall_one (forall_one (goodFn_of (by decide +kernel)))

theorem exPeek_isModule : Codegen.IsModule [] exPeekImpls (mkRegistry [] exPeekImpls 9) :=
  mkRegistry_isModule (by decide +kernel)

def exPeekCall : Label := .client 0 (.request (lit "Api") (lit "peek") [.num (.int 7)])

/-- The promise resolves with `null`. -/
theorem peek_history : ∃ s₁ s₂ s, run exPeekBackend.service (System.init [0]) [] = some s₁ ∧
    step exPeekBackend.service s₁ exPeekCall = some s₂ ∧ run exPeekBackend.service s₂ exFindRun = some s ∧
    (s.clients 0).calls.length ≤ 2 ^ 53 ∧ Json.null ∈ promise s₁ 0 s := by
  obtain ⟨s₁, s₂, s, h1, h2, h3, hck⟩ := runTwo_sound (sv := exPeekBackend.service) (b := [0]) (ls₁ := []) (l := exPeekCall)
    (ls₂ := exFindRun) (check := fun s₁ _ s => (match promise s₁ 0 s with | [.null] => true | _ => false) &&
      decide ((s.clients 0).calls.length ≤ 2 ^ 53)) (by decide +kernel)
  rw [Bool.and_eq_true, decide_eq_true_eq] at hck
  refine ⟨s₁, s₂, s, h1, h2, h3, hck.2, ?_⟩
  have := hck.1
  split at this
  · rename_i e; rw [e]; exact List.mem_singleton.2 rfl
  · cases this

/-- **C60 fails.** A method that returns `None` resolves the promise with `null`, which is not a value of the declared type
`string | undefined` (C51). -/
theorem C60_violated : ¬ C60_statement := by
  intro h
  obtain ⟨M, hw, hc⟩ := (C55_exact [] exPeekImpls _ (backendNames exPeekBackend) exPeek_printable exPeek_isModule).2 (by decide +kernel)
  obtain ⟨M', hw', hmo⟩ := writes_of exPeek_printable exPeek_isModule (backendNames exPeekBackend)
  have := writes_unique hw hw'
  subst this
  obtain ⟨N, hN, e, i, hi, ps, es, t, T, h1, h2, h3, h4, rfl⟩ := stub_mem hmo (b := (lit "Api", [exPeek])) (List.mem_singleton.2 rfl)
    (by decide +kernel) (f := exPeek) List.mem_cons_self
  obtain ⟨s₁, s₂, s, g1, g2, g3, g4, g5⟩ := peek_history
  have := h [] exPeekImpls _ Nat Unit exPeekBackend M exPeek_printable exPeek_isModule (exPeek_backend true) hw hc N hN _ hi T [0] .null
    (.promise (lit "Api") (lit "peek") 0 _ s₁ s₂ s exFindRun rfl
      ⟨ps.map (fun p => .expr (.var p.1)) ++ [.expr (validation es)], by rw [List.append_assoc]; rfl⟩ ⟨_, g1⟩ g2 g3 g4 g5)
  obtain ⟨k1, k2, k3, k4⟩ := C51_none
  have e0 := Schema.returns_unique h3 k1
  subst e0
  rw [k2] at h4
  injection h4 with h4
  subst h4
  exact k4 _ _ this

end Verif.Props
