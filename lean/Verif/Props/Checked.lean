import Verif.Check.Project
import Verif.Spec.Project
import Verif.Props.OfModule
import Verif.Props.FairCalls
import Verif.Props.File

/-!
# C75: projects that are checked

One condition on a project, which can be computed (`Verif/Check`), and all that a user relies on (`Verif/Spec/Project.lean`).
-/

namespace Verif.Props
open Verif Verif.Schema Verif.SchemaSpec Verif.Js Verif.Ts Verif.Spec Verif.Codegen Verif.Zod Verif.Check
open Verif.WireSpec Verif.DispatchSpec Verif.ServerSpec Verif.System Verif.SystemSpec

theorem params_names {P : Program} {as : List (Str × Ty)} {ps : List (Str × TsType)} (h : All2 (ParamOf P) as ps) :
    ps.map (·.1) = as.map (·.1) := by
  induction h with
  | nil => rfl
  | cons h _ ih => rw [List.map_cons, List.map_cons, ih, h.1]

/-- **C75.** If the check succeeds for the declarations and functions of a project, `generate()` for its backend writes a file
that can be read, whose declarations do not get into each other's way, and on which a user can rely. -/
theorem C75_checked {S V : Type} (wide : Bool) (P : Program) (impls : List (Str × List RpcItem)) (b : BackendDef S V) (n : Nat)
    (hcheck : conforms wide P impls (backendNames b) n = true) (r : Registry) (hm : Codegen.IsModule P impls r)
    (hB : BackendFor P false impls b) (hname : ∀ n ∈ b.fields, n.nsName = n.ident) :
    ∃ D M, readFile (generate r (backendNames b) Client.clientText) = some (D, M) ∧ TopLevelOk D M ∧
      Dependable wide P impls b M := by
  have hc := (conforms_sound hcheck).1
  obtain ⟨M, hw, hmo⟩ := writes_of hc.printable hm (backendNames b)
  have hncl : NoClash M := (no_clash_iff hmo).2 hc.distinct
  have hfile : readFile (generate r (backendNames b) Client.clientText) = some (clientDecls, M) := by
    obtain ⟨text, h1, h2⟩ := hw
    rw [h1]
    exact client_file h2
  have hE := schemas_of_module hmo hncl hc.namespaces
  have hfns : ∀ N ∈ M, ∀ F, Item.func F ∈ N.items → F.params ≠ [] → ∀ x ∈ impls, x.1 = N.name → ∀ f ∈ x.2, f.ident = F.name →
      Typed false f.output ∧ f.args ≠ [] ∧ ∀ a ∈ f.args, Sound wide P a.2 := by
    intro N hN F hF hargs x hx hxn f hf hfn
    refine ⟨(hc.functions x hx f hf).1, ?_, fun a ha => ((hc.functions x hx f hf).2 a ha).1⟩
    obtain ⟨x', hx', hxn', f', hf', ps, es', t, T', h1, _, _, _, h5⟩ := func_stub hmo hN hF
    injection h5 with h5
    have e : f = f' := by
      have : x = x' := map_nodup_inj hc.once hx hx' (hxn.trans hxn'.symm)
      subst this
      have hnd := hc.distinct N.name ((hmo.names N.name).1 (List.mem_map.2 ⟨N, hN, rfl⟩)).1
      have hnd := (List.nodup_append.1 hnd).2.1
      refine map_nodup_inj hnd (List.mem_flatMap.2 ⟨x, List.mem_filter.2 ⟨hx, by simpa using hxn⟩, hf⟩)
        (List.mem_flatMap.2 ⟨x, List.mem_filter.2 ⟨hx, by simpa using hxn⟩, hf'⟩) ?_
      rw [hfn, h5]; rfl
    subst e
    intro h0
    rw [h0] at h1
    cases h1
    exact hargs (by rw [h5]; rfl)
  refine ⟨clientDecls, M, hfile, (topLevelOk_iff hmo).2 (fun x hx _ => hc.topLevel x hx), ?_⟩
  exact {
    noClash := hncl
    resolved := resolved hc.printable hmo hc.namespaces hc.notShadowed hc.notOutside
    reached := client_reached hmo hc.clientFree
    written := fun i d hd => by
      obtain ⟨z, hz, h1⟩ := C05_module_partial P impls r _ M hc.printable hm hw hncl hc.namespaces hc.noThrow hc.guarded hc.complete i d hd
      obtain ⟨T, hT, h2⟩ := C51_module_partial P impls r _ false false M hc.printable hm hw hncl hc.namespaces hc.noUnion hc.typed i d hd
      exact ⟨z, T, hz, hT, fun j hj hk => ⟨h1 j hj, h2 j hk hj⟩⟩
    accepted := fun i d z T hd hz hT => by
      refine ⟨fun v => ?_, fun v res hv => ?_⟩
      · obtain ⟨s, hs, e⟩ := hE i d hd
        exact C50_partial P _ hc.printable.names hc.printable.styled hc.printable.plain hc.guarded hE .schema (.inl rfl) (.named i) s hs z
          (e.symm.trans hz) v
      · have h1 := C06_module_strict_partial P impls r _ M hc.printable hm hw hncl hc.namespaces hc.strict d.ns d.name z T hz hT v res hv
        exact ⟨h1.1, h1.2, C04_module_partial wide P impls r _ M hc.printable hm hw hncl hc.namespaces hc.sound i d hd z hz v res hv⟩
    stubs := fun x hx f hf => by
      obtain ⟨N, hN, e, i, hi, ps, es, t, T, h1, h2, h3, h4, rfl⟩ := stub_mem hmo hx (hc.implemented x hx) hf
      exact ⟨N, hN, e, _, hi, rfl, params_names h1⟩
    received := fun N hN F hF T st d hd => C60_partial P impls r false false b M hc.printable hm hB hw hncl hname hc.namespaces hc.noUnion
      hc.typed N hN F hF (fun x hx _ f hf _ => (hc.functions x hx f hf).1) T st d hd
    arguments := fun N hN F hF ss es last hbody zs hzs l hl => C06_arguments_partial P impls r _ M false hc.printable hm hw hncl hc.namespaces
      N hN F hF (.inr ⟨hc.strict, fun x hx _ f hf _ a ha => ((hc.functions x hx f hf).2 a ha).2⟩) ss es last hbody zs hzs l hl
    calls := fun N hN F hF hargs T hret ss es ns m hbody zs hzs l res hval hprop hplain hkept js hjs st s₁ s₂ s i k c ls₁ ls₂ h₁ hcall
        hrun hcalm hn hsent ho hq =>
      C60_call_partial P impls r wide false false b M hc.printable hm hB hw hncl hname hc.namespaces hc.once hc.noUnion hc.typed
        hc.sound hc.lax N hN F hF (hfns N hN F hF hargs) T hret ss es ns m hbody zs hzs l res hval hprop hplain hkept js hjs h₁ hcall hrun
        hcalm hn hsent ho hq
    answered := fun N hN F hF hargs T hret ss es ns m hbody zs hzs l res hval hprop hplain hkept js hjs b₀ hlen st lab i n hE hP hC hF' hn hs =>
      C60_fair_partial P impls r wide false false b M hc.printable hm hB hw hncl hname hc.namespaces hc.once hc.noUnion hc.typed
        hc.sound hc.lax N hN F hF (hfns N hN F hF hargs) T hret ss es ns m hbody zs hzs l res hval hprop hplain hkept js hjs hlen hE hP hC
        hF' hn hs
    streamed := fun N hN F hF hargs T hret ss es ns m hbody zs hzs l res hval hprop hplain hkept js hjs b₀ hlen st lab i n hE hP hC hF' hn
        ha hs hatt ht =>
      C60_fair_stream_partial P impls r wide false false b M hc.printable hm hB hw hncl hname hc.namespaces hc.once hc.noUnion hc.typed
        hc.sound hc.lax N hN F hF (hfns N hN F hF hargs) T hret ss es ns m hbody zs hzs l res hval hprop hplain hkept js hjs hlen hE hP hC
        hF' hn ha hs hatt ht }

/-- A project for which the check succeeds can be generated. -/
theorem C75_generated (wide : Bool) (P : Program) (impls : List (Str × List RpcItem)) (names : List Str) (n : Nat)
    (hcheck : conforms wide P impls names n = true) : ∃ r, Codegen.IsModule P impls r :=
  ⟨_, mkRegistry_isModule (conforms_sound hcheck).2⟩

/-! ## Examples -/

/-- `struct User { id: u32, name: String, nick: Option<String>, notes: Vec<String> }` with `default` and
`skip_serializing_if` on the last two, enums with all four representations, and a struct that uses them. -/
def chatTypes : Program :=
  [ .struct (exStruct "User" [exField "id" (.prim .u32), exField "name" (.prim .string),
      { exField "nick" (.option (.prim .string)) with dflt := true, skipIfNone := true },
      { exField "notes" (.vec (.prim .string)) with dflt := true, skipIf := true }]),
    .enum (exEnum "Event" (.internal (lit "type")) [exVariant "Joined" .named [exField "user" (.named 0)],
      exVariant "Said" .named [exField "user" (.named 0), exField "text" (.prim .string), exField "color" (.named 2)],
      exVariant "Left" .unit []]),
    .enum (exEnum "Color" .external [exVariant "Red" .unit [],
      exVariant "Rgb" .tuple [exPos (.prim .u8), exPos (.prim .u8), exPos (.prim .u8)]]),
    .struct (exStruct "Thread" [exField "first" (.named 1), exField "replies" (.vec (.named 1)),
      exField "state" (.result (.prim .u16) (.tuple [.prim .char, .wrap .box (.named 2)]))]),
    .enum (exEnum "Key" .untagged [exVariant "Id" .tuple [exPos (.prim .u32)], exVariant "Name" .tuple [exPos (.prim .string)]]),
    .enum (exEnum "Page" (.adjacent (lit "t") (lit "c")) [exVariant "One" .tuple [exPos (.named 3)],
      exVariant "Many" .named [exField "items" (.vec (.named 3))], exVariant "Empty" .unit []]) ]

/-- `async fn post(&mut self, thread: Thread, key: Key, after: Option<u32>) -> Page` and
`fn events(&mut self, keys: Vec<Key>) -> impl Stream<Item = Event>`. -/
def chatImpls : List (Str × List RpcItem) :=
  [ (lit "Ns", [⟨lit "post", [(lit "thread", .named 3), (lit "key", .named 4), (lit "after", .option (.prim .u32))], .method,
      .named 5, false⟩, ⟨lit "events", [(lit "keys", .vec (.named 4))], .stream, .named 1, true⟩]) ]

/-- The check succeeds for it; it fails if a field is renamed for one direction only. -/
example : conforms false chatTypes chatImpls [lit "Ns"] 20 = true := by decide +kernel

example : conforms false [.struct (exStruct "User" [{ exField "id" (.prim .u32) with serName := lit "ID" }])] [] [lit "Ns"] 9 = false := by
  decide +kernel

/-! ### The example of the repository -/

/-- The types of `examples/axum/api.rs` (lines 5-29): `Watchout.MyEntity { value: MyEntity2 }`, `Watchout.T(usize)`,
`Watchout.MyEntity3 { value: MyEntity2 }`, `Pixera.MyEntity2 { value: usize }`. -/
def axumTypes : Program :=
  [ .struct { exStruct "MyEntity" [exField "value" (.named 3)] with ns := lit "Watchout" },
    .struct { exTuple "T" [exPos (.prim .usize)] with ns := lit "Watchout" },
    .struct { exStruct "MyEntity3" [exField "value" (.named 3)] with ns := lit "Watchout" },
    .struct { exStruct "MyEntity2" [exField "value" (.prim .usize)] with ns := lit "Pixera" } ]

/-- Its functions (`examples/axum/api.rs:41-83`). -/
def axumImpls : List (Str × List RpcItem) :=
  [ (lit "Pixera", [⟨lit "x", [], .stream, .prim .string, false⟩, ⟨lit "y", [], .stream, .prim .string, false⟩]),
    (lit "Watchout", [⟨lit "nested", [(lit "_value", .named 0)], .method, .prim .usize, false⟩,
      ⟨lit "hello1", [(lit "_s", .prim .string)], .method, .prim .usize, false⟩,
      ⟨lit "hello", [(lit "_s", .prim .string), (lit "_n", .prim .usize)], .method, .prim .usize, false⟩,
      ⟨lit "hello_stream", [(lit "num", .prim .usize)], .stream, .prim .usize, false⟩]) ]

/-- An argument of the type, as the document it is read from. -/
noncomputable def readAs (P : Program) (t : Ty) (j : Json) : Option Json := by
  classical exact if De P t j then some j else none

theorem readAs_of {P : Program} {t : Ty} {j : Json} (h : De P t j) : ∃ v, readAs P t j = some v := by
  unfold readAs
  exact ⟨j, if_pos h⟩

/-- `self.shared_data += 1; self.shared_data` -/
def countUp (s : UInt64) (_ : List Json) : UInt64 × Except SerdeErr Json := (s + 1, .ok (.num (.int (s + 1).toNat)))

/-- `futures::stream::once(async move { String::new() })` -/
def onceEmpty (s : UInt64) (_ : List Json) : UInt64 × (Nat → Option (Except SerdeErr Json)) :=
  (s, fun n => if n = 0 then some (.ok (.str [])) else none)

/-- `futures::stream::iter(0..).take(num)` -/
def countTo (s : UInt64) (a : List Json) : UInt64 × (Nat → Option (Except SerdeErr Json)) :=
  (s, fun n => match a with
    | .num (.int k) :: _ => if n < k ∧ n < 2 ^ 64 then some (.ok (.num (.int n))) else none
    | _ => none)

noncomputable def axumWatchout : NamespaceDef UInt64 Json where
  ident := lit "Watchout"
  nsName := lit "Watchout"
  methods := [
    { name := lit "nested", args := [readAs axumTypes (.named 0)], body := .method countUp },
    { name := lit "hello1", args := [readAs axumTypes (.prim .string)], body := .method countUp },
    { name := lit "hello", args := [readAs axumTypes (.prim .string), readAs axumTypes (.prim .usize)], body := .method countUp },
    { name := lit "hello_stream", args := [readAs axumTypes (.prim .usize)], body := .stream countTo } ]

noncomputable def axumPixera : NamespaceDef UInt64 Json where
  ident := lit "Pixera"
  nsName := lit "Pixera"
  methods := [
    { name := lit "x", args := [], body := .stream onceEmpty },
    { name := lit "y", args := [], body := .stream onceEmpty } ]

/-- `struct MyBackend(pub Watchout, pub Pixera)` (`examples/axum/api.rs:85-86`). -/
noncomputable def axumBackend : BackendDef UInt64 Json := ⟨[axumWatchout, axumPixera]⟩

theorem usize_written {P : Program} {n : Nat} (h : n < 2 ^ 64) : Written P false (.prim .usize) (.num (.int n)) :=
  ⟨_, .int _ 0 (2 ^ 64 - 1) n (Or.inr rfl) (by omega) (by omega), .num _, rfl⟩

theorem axum_backend : BackendFor axumTypes false axumImpls axumBackend := by
  have hm : ∀ f : RpcItem, f.kind = .method → f.output = .prim .usize → ∀ (n : Str) as,
      ResultFor axumTypes false f (⟨n, as, .method countUp⟩ : MethodDef UInt64 Json) := by
    intro f h1 h2 n as
    refine .method _ h1 rfl (fun s vs d h => ?_)
    injection h with h
    rw [← h, h2]
    exact usize_written (s + 1).toNat_lt
  have hx : ∀ f : RpcItem, f.kind = .stream → f.output = .prim .string → ∀ (n : Str) as,
      ResultFor axumTypes false f (⟨n, as, .stream onceEmpty⟩ : MethodDef UInt64 Json) := by
    intro f h1 h2 n as
    refine .stream _ h1 rfl (fun s vs n d h => ?_)
    simp only [onceEmpty] at h
    split at h
    · injection h with h
      injection h with h
      rw [← h, h2]
      exact ⟨_, .string _, .str _, rfl⟩
    · cases h
  refine ⟨⟨by decide +kernel, forall_two (by decide +kernel) (by decide +kernel)⟩, forall_two
    ⟨_, List.mem_cons_of_mem _ List.mem_cons_self, ?_⟩ ⟨_, List.mem_cons_self, ?_⟩⟩
  · refine .cons ⟨⟨rfl, .cons (fun _ h => readAs_of h) .nil⟩, hm _ rfl rfl _ _⟩
      (.cons ⟨⟨rfl, .cons (fun _ h => readAs_of h) .nil⟩, hm _ rfl rfl _ _⟩
      (.cons ⟨⟨rfl, .cons (fun _ h => readAs_of h) (.cons (fun _ h => readAs_of h) .nil)⟩, hm _ rfl rfl _ _⟩
      (.cons ⟨⟨rfl, .cons (fun _ h => readAs_of h) .nil⟩, ?_⟩ .nil)))
    refine .stream _ rfl rfl (fun s vs n d h => ?_)
    simp only [countTo] at h
    split at h
    · split at h
      · rename_i hn
        injection h with h
        injection h with h
        rw [← h]
        exact usize_written hn.2
      · cases h
    · cases h
  · exact .cons ⟨⟨rfl, .nil⟩, hx _ rfl rfl _ _⟩ (.cons ⟨⟨rfl, .nil⟩, hx _ rfl rfl _ _⟩ .nil)

/-- The check succeeds for the example of the repository. -/
theorem axum_conforms : conforms true axumTypes axumImpls [lit "Watchout", lit "Pixera"] 9 = true := by decide +kernel

/-- So a user can rely on it. -/
theorem C75_axum : ∃ r D M, Codegen.IsModule axumTypes axumImpls r ∧
    readFile (generate r [lit "Watchout", lit "Pixera"] Client.clientText) = some (D, M) ∧ TopLevelOk D M ∧
    Dependable true axumTypes axumImpls axumBackend M := by
  obtain ⟨r, hr⟩ := C75_generated _ _ _ _ _ axum_conforms
  obtain ⟨D, M, h⟩ := C75_checked true axumTypes axumImpls axumBackend 9 axum_conforms r hr axum_backend (forall_two rfl rfl)
  exact ⟨r, D, M, hr, h⟩

end Verif.Props
