import Verif.Ts.Scope
import Verif.Codegen.Build
import Verif.Zod.EnumShape
import Verif.Props.Valid

/-!
# C52, C22, C21, C53, C55: the generated module as a whole

What `generate()` writes after the client code, read as TypeScript.
-/

namespace Verif.Props
open Verif Verif.Schema Verif.SchemaSpec Verif.Js Verif.Ts Verif.Spec Verif.Codegen

/-- `text` is what `generate()` writes after the client code, and `M` is the module it is. -/
def Writes (r : Registry) (names : List Str) (M : List Ns) : Prop :=
  ∃ text, (∀ client, generate r names client = client ++ text) ∧ readModule text = some M

theorem writes_unique {r : Registry} {names : List Str} {M M' : List Ns} (h : Writes r names M) (h' : Writes r names M') : M = M' := by
  obtain ⟨t, h1, h2⟩ := h
  obtain ⟨t', h1', h2'⟩ := h'
  have : t = t' := by have := h1 []; rw [h1' []] at this; simpa using this.symm
  rw [this, h2'] at h2
  injection h2 with h2
  exact h2.symm

theorem writes_of {P : Program} {impls : List (Str × List RpcItem)} (hp : Printable P impls) {r : Registry}
    (h : IsModule P impls r) (names : List Str) : ∃ M, Writes r names M ∧ ModuleOf P impls names M := by
  obtain ⟨text, M, h1, h2, h3⟩ := module_reads hp h names []
  refine ⟨M, ⟨text, fun client => ?_, h2⟩, h3⟩
  obtain ⟨a, a1, a2, a3⟩ := C18_block_contents r names []
  obtain ⟨b, b1, b2, b3⟩ := C18_block_contents r names client
  rw [b3, C18_blocks_unique b1 a1 b2 a2]
  rw [a3] at h1
  simp only [List.nil_append] at h1
  rw [h1]

/-! ## C52: it is a valid module with everything in its place -/

/-- The full property: what is written after the client code is a module with one namespace for each of the
backend's namespaces that has types or functions, which declares exactly the types and functions registered there. -/
def C52_statement : Prop :=
  ∀ (P : Program) (impls : List (Str × List RpcItem)) (r : Registry) (names : List Str), IsModule P impls r →
    ∃ M, Writes r names M ∧ ModuleOf P impls names M

/-- **C52.** The property holds for programs in which no name and no documentation makes the text invalid. -/
theorem C52_partial (P : Program) (impls : List (Str × List RpcItem)) (hp : Printable P impls) (r : Registry) (names : List Str)
    (h : IsModule P impls r) : ∃ M, Writes r names M ∧ ModuleOf P impls names M := writes_of hp h names

/-! ## C22: client stubs -/

/-- The full property: for every function of the backend's namespaces the module declares the stub
(`Verif/Spec/Stubs.lean`) with the names and types of its arguments, in order. -/
def C22_statement : Prop :=
  ∀ (P : Program) (impls : List (Str × List RpcItem)) (r : Registry) (names : List Str), IsModule P impls r →
    ∃ M, Writes r names M ∧ ∀ b ∈ impls, b.1 ∈ names → ∀ f ∈ b.2, ∃ N ∈ M, N.name = b.1 ∧
      ∃ i ∈ N.items, StubItem P b.1 f i

theorem stub_mem {P : Program} {impls : List (Str × List RpcItem)} {names : List Str} {M : List Ns} (h : ModuleOf P impls names M)
    {b : Str × List RpcItem} (hb : b ∈ impls) (hn : b.1 ∈ names) {f : RpcItem} (hf : f ∈ b.2) :
    ∃ N ∈ M, N.name = b.1 ∧ ∃ i ∈ N.items, StubItem P b.1 f i := by
  obtain ⟨N, hN, e⟩ := List.mem_map.1 ((h.names b.1).2 ⟨hn, Or.inr ⟨b, hb, rfl, fun h0 => by rw [h0] at hf; cases hf⟩⟩)
  obtain ⟨ds, fs, ls, is, _, h2, _, h4, h5⟩ := h.items N hN
  have : f ∈ fs := h2.symm.subset (List.mem_flatMap.2 ⟨b, List.mem_filter.2 ⟨hb, by simpa using e.symm⟩, hf⟩)
  obtain ⟨i, hi, hs⟩ := Zod.All2.mem_left h4 this
  exact ⟨N, hN, e, i, by rw [h5]; exact List.mem_append_right _ hi, e ▸ hs⟩

/-- **C22.** The property holds for programs in which no name and no documentation makes the text invalid. Also,
every function of the module is the stub of a function of the program. -/
theorem C22_partial (P : Program) (impls : List (Str × List RpcItem)) (hp : Printable P impls) (r : Registry) (names : List Str)
    (h : IsModule P impls r) : ∃ M, Writes r names M ∧
      (∀ b ∈ impls, b.1 ∈ names → ∀ f ∈ b.2, ∃ N ∈ M, N.name = b.1 ∧ ∃ i ∈ N.items, StubItem P b.1 f i) ∧
      ∀ N ∈ M, ∀ g, Item.func g ∈ N.items → ∃ b ∈ impls, b.1 = N.name ∧ ∃ f ∈ b.2, StubItem P N.name f (.func g) := by
  obtain ⟨M, h1, h2⟩ := writes_of hp h names
  refine ⟨M, h1, fun b hb hn f hf => stub_mem h2 hb hn hf, fun N hN g hg => ?_⟩
  obtain ⟨ds, fs, ls, is, _, e2, e3, e4, e5⟩ := h2.items N hN
  rw [e5, List.mem_append] at hg
  rcases hg with hg | hg
  · obtain ⟨l, hl, hg⟩ := List.mem_flatten.1 hg
    obtain ⟨x, hx, s, e, t, T, j, _, _, _, _, hj, rfl⟩ := Zod.All2.mem_right e3 hl
    simp only [List.mem_cons, List.not_mem_nil, or_false] at hg
    rcases hg with hg | hg
    · cases hg
    · subst hg; cases hj
  · obtain ⟨f, hf, hs⟩ := Zod.All2.mem_right e4 hg
    obtain ⟨b, hb, hf⟩ := List.mem_flatMap.1 (e2.subset hf)
    obtain ⟨hb, e⟩ := List.mem_filter.1 hb
    exact ⟨b, hb, by simpa using e, f, hf, hs⟩

theorem evalEs_schemas {es : List JsExpr} {zs : List Zod.ZSchema} (h : All2 (fun e z => Zod.evalE e = some (.schema z)) es zs) :
    Zod.evalE.evalEs es = some (zs.map .schema) := by
  induction h with
  | nil => rfl
  | cons h1 _ ih => simp [Zod.evalE.evalEs, h1, ih]

/-- **C22, validation.** If the schemas of the arguments evaluate to `zs`, then what is called with the arguments
is the `parse` method of a schema that accepts exactly the lists of as many arguments as there are schemas, each of
which its schema accepts. -/
theorem C22_validation (E : Zod.ZEnv) (es : List JsExpr) (zs : List Zod.ZSchema)
    (h : All2 (fun e z => Zod.evalE e = some (.schema z)) es zs) :
    ∃ T z, validation es = .call (.member T (lit "parse")) [.arr [.spread (.var (lit "arguments"))]] ∧
      Zod.evalE T = some (.schema z) ∧ ∀ l : List JsVal, Zod.Accepts E z (.arr l) ↔ All2 (Zod.Accepts E) zs l := by
  refine ⟨_, .tuple zs, rfl, ?_, fun l => ?_⟩
  · have hm : Zod.methOf (lit "tuple") = some .tuple := rfl
    have hs : Zod.schemas (zs.map .schema) = some zs := by
      clear h
      induction zs with
      | nil => rfl
      | cons z zs ih => simp [Zod.schemas, ih]
    simp [Zod.evalE, Zod.evalE.evalEs, hm, evalEs_schemas h, Zod.applyMeth, hs]
  · rw [Zod.tuple_iff]
    constructor
    · rintro ⟨l', e, h⟩
      injection e with e
      exact e ▸ h
    · exact fun h => ⟨l, rfl, h⟩

/-! ## C21: references -/

/-- The full property: every reference in the module refers to a declaration of the module. -/
def C21_statement : Prop :=
  ∀ (P : Program) (impls : List (Str × List RpcItem)) (r : Registry) (names : List Str), Printable P impls → IsModule P impls r →
    ∃ M, Writes r names M ∧ AllResolved M

/-- **C21.** The property holds if the namespaces of all types belong to the backend, no type, function or argument
is called like the namespace of a type, and no type is called like one of the types that the generated code uses. -/
theorem C21_partial (P : Program) (impls : List (Str × List RpcItem)) (r : Registry) (names : List Str) (hp : Printable P impls)
    (h : IsModule P impls r) (hns : ∀ d ∈ P, d.ns ∈ names) (hsh : ∀ d ∈ P, ¬ Called P impls d.ns)
    (hout : ∀ d ∈ P, d.name ∉ outsideTypes) : ∃ M, Writes r names M ∧ AllResolved M := by
  obtain ⟨M, h1, h2⟩ := writes_of hp h names
  exact ⟨M, h1, resolved hp h2 hns hsh hout⟩

/-! ## C53: names of the client code -/

/-- The full property: every use of zod and of the client functions refers to those. -/
def C53_statement : Prop :=
  ∀ (P : Program) (impls : List (Str × List RpcItem)) (r : Registry) (names : List Str), Printable P impls → IsModule P impls r →
    ∃ M, Writes r names M ∧ ClientReached M

/-- **C53.** The property holds if nothing in the program is called `z`, `request` or `subscribe`. -/
theorem C53_partial (P : Program) (impls : List (Str × List RpcItem)) (r : Registry) (names : List Str) (hp : Printable P impls)
    (h : IsModule P impls r)
    (hfree : ∀ x ∈ clientNames, ¬ Called P impls x ∧ (∀ d ∈ P, d.ns ≠ x) ∧ ∀ b ∈ impls, b.1 ≠ x) :
    ∃ M, Writes r names M ∧ ClientReached M := by
  obtain ⟨M, h1, h2⟩ := writes_of hp h names
  exact ⟨M, h1, client_reached h2 hfree⟩

/-! ## C55: nothing is declared twice -/

/-- The full property, for what Rust guarantees: different types of a namespace have different names, and so do
different functions. -/
def C55_statement : Prop :=
  ∀ (P : Program) (impls : List (Str × List RpcItem)) (r : Registry) (names : List Str), Printable P impls → IsModule P impls r →
    (P.map (fun d => (d.ns, d.name))).Nodup → (∀ x, (((impls.filter (fun b => b.1 = x)).flatMap (·.2)).map (·.ident)).Nodup) →
    ∃ M, Writes r names M ∧ NoClash M

/-- **C55.** The property holds if no function is called like a type of its namespace. -/
theorem C55_partial (P : Program) (impls : List (Str × List RpcItem)) (r : Registry) (names : List Str) (hp : Printable P impls)
    (h : IsModule P impls r) (ht : (P.map (fun d => (d.ns, d.name))).Nodup)
    (hf : ∀ x, (((impls.filter (fun b => b.1 = x)).flatMap (·.2)).map (·.ident)).Nodup)
    (hd : ∀ d ∈ P, ∀ b ∈ impls, b.1 = d.ns → ∀ f ∈ b.2, f.ident ≠ d.name) :
    ∃ M, Writes r names M ∧ NoClash M := by
  obtain ⟨M, h1, h2⟩ := writes_of hp h names
  exact ⟨M, h1, no_clash h2 ht hf hd⟩

/-- C55, exactly: nothing is declared twice iff in each of the namespaces of the backend the types and functions have
different names. -/
theorem C55_exact (P : Program) (impls : List (Str × List RpcItem)) (r : Registry) (names : List Str) (hp : Printable P impls)
    (h : IsModule P impls r) :
    (∃ M, Writes r names M ∧ NoClash M) ↔ ∀ x ∈ names, (declaredNames P impls x).Nodup := by
  obtain ⟨M, h1, h2⟩ := writes_of hp h names
  refine ⟨fun ⟨M', w, hc⟩ => ?_, fun hd => ⟨M, h1, (no_clash_iff h2).2 hd⟩⟩
  rw [writes_unique w h1] at hc
  exact (no_clash_iff h2).1 hc

/-! ## Example -/

/-- `struct Ns.User { id: u32, tags: Vec<String>, kind: Kind }` with documentation and `enum Other.Kind { Guest, Admin(u8) }`. -/
def exMod : Program :=
  [ .struct { exStruct "User" [exField "id" (.prim .u32), { exField "tags" (.vec (.prim .string)) with dflt := true },
      exField "kind" (.named 1)] with attrs := [.doc (lit " A user.")] },
    .enum { exEnum "Kind" .external [exVariant "Guest" .unit [], exVariant "Admin" .tuple [exPos (.prim .u8)]] with
      ns := lit "Other" } ]

/-- `async fn get(&mut self, id: u32, kind: Kind) -> Option<User>` and `fn watch(&mut self, user: User) -> impl
Stream<Item = u32>` of `Ns`, and `async fn reset(&mut self)` of `Api`. -/
def exImpls : List (Str × List RpcItem) :=
  [ (lit "Ns", [⟨lit "get", [(lit "id", .prim .u32), (lit "kind", .named 1)], .method, .option (.named 0), false⟩,
      ⟨lit "watch", [(lit "user", .named 0)], .stream, .prim .u32, true⟩]),
    (lit "Api", [⟨lit "reset", [], .method, .prim .unit, false⟩]) ]

theorem exMod_isModule : IsModule exMod exImpls (mkRegistry exMod exImpls 9) := mkRegistry_isModule (by decide +kernel)

theorem forall_two {α : Type} {p : α → Prop} {a b : α} (ha : p a) (hb : p b) : ∀ x ∈ [a, b], p x := by
  intro x hx
  simp only [List.mem_cons, List.not_mem_nil, or_false] at hx
  rcases hx with rfl | rfl
  · exact ha
  · exact hb

theorem no_broken {P : Program} (h : ∀ (i : Nat) s, P[i]? = some (.struct s) → s.from_.ty? = none → s.transparent = false →
      (s.style = .tuple → (s.fields.filter (fun f => !f.skipDe)).length = 1) ∧
      (s.style = .named → ∀ f ∈ s.fields, f.skipDe = false → f.flatten = false))
    (he : ∀ (i : Nat) e, P[i]? = some (.enum e) → e.from_.ty? = none) (i : Nat) : ¬ BrokenInterface P (.named i) := by
  intro hb
  cases hb with
  | tuple i s h1 h2 h3 h4 h5 => exact h5 ((h i s h1 h2 h3).1 h4)
  | flatten i s f h1 h2 h3 h4 h5 h6 h7 =>
    have := (h i s h1 h2 h3).2 h4 f h5 h6
    rw [this] at h7
    cases h7
  | enumFrom i e t h1 h2 _ => rw [he i e h1] at h2; cases h2

theorem goodFn_of {f : RpcItem} (h : (isIdent f.ident && bindable f.ident && f.args.all (fun a => isIdent a.1 && bindable a.1) &&
    decide (f.args.map (·.1)).Nodup) = true) : GoodFn f := by
  simp only [Bool.and_eq_true, List.all_eq_true, decide_eq_true_eq] at h
  exact ⟨h.1.1, h.1.2, h.2⟩

theorem exMod_printable : Printable exMod exImpls where
  names := forall_two (by decide +kernel) (by decide +kernel)
  typeNames := forall_two (by decide +kernel) (by decide +kernel)
  styled := forall_two (by decide +kernel) (by decide +kernel)
  plain := forall_two (by simp [Plain, exStruct]) (by simp [Plain, exEnum, exVariant])
  declarable := forall_two (by decide +kernel) (by decide +kernel)
  interfaces := no_broken (by
      intro i s hi
      match i, hi with
      | 0, hi => injection hi with hi; injection hi with hi; subst hi; simp [exStruct, exField]
      | 1, hi => injection hi with hi; cases hi
      | i + 2, hi => simp [exMod] at hi) (by
      intro i e hi
      match i, hi with
      | 0, hi => injection hi with hi; cases hi
      | 1, hi => injection hi with hi; injection hi with hi; subst hi; rfl
      | i + 2, hi => simp [exMod] at hi)
  docs := forall_two (by
      intro s hs
      have : s = lit " A user." := by simpa [DocsSpec.docStrings, Decl.attrs] using hs
      subst this
      decide +kernel) (by intro s hs; cases hs)
  rpcNames := forall_two (by decide +kernel) (by decide +kernel)
  functions := forall_two (forall_two (goodFn_of (by decide +kernel)) (goodFn_of (by decide +kernel)))
    (by intro f hf; rw [List.mem_singleton] at hf; subst hf; exact goodFn_of (by decide +kernel))

def exNames : List Str := [lit "Other", lit "Ns", lit "Api"]

/-- The module of the example: three namespaces, with a constant and a type for each type and three functions. -/
example : (readModule (generate (mkRegistry exMod exImpls 9) exNames [])).map (fun M => M.map (fun N => (N.name, N.items.map Item.name))) =
    some [(lit "Api", [lit "reset"]), (lit "Ns", [lit "User", lit "User", lit "get", lit "watch"]),
      (lit "Other", [lit "Kind", lit "Kind"])] := by decide +kernel

/-- Its functions. -/
example : (readModule (generate (mkRegistry exMod exImpls 9) exNames [])).map
      (fun M => M.flatMap (fun N => N.items.filterMap (fun i => match i with
        | .func f => some (f.isAsync, f.name, f.params.map (·.1), f.body.length)
        | _ => none))) =
    some [(true, lit "reset", [], 2), (true, lit "get", [lit "id", lit "kind"], 4), (false, lit "watch", [lit "user"], 3)] := by
  decide +kernel

/-- Names of types, functions and arguments, for checking. -/
def calledNames (P : Program) (impls : List (Str × List RpcItem)) : List Str :=
  P.map (·.name) ++ impls.flatMap (fun b => b.2.flatMap (fun f => f.ident :: f.args.map (·.1)))

theorem not_called {P : Program} {impls : List (Str × List RpcItem)} {x : Str} (h : x ∉ calledNames P impls) : ¬ Called P impls x := by
  intro hc
  refine h (List.mem_append.2 ?_)
  rcases hc with ⟨d, hd, e⟩ | ⟨b, hb, f, hf, hx⟩
  · exact Or.inl (List.mem_map.2 ⟨d, hd, e⟩)
  · refine Or.inr (List.mem_flatMap.2 ⟨b, hb, List.mem_flatMap.2 ⟨f, hf, ?_⟩⟩)
    rcases hx with rfl | ⟨a, ha, rfl⟩
    · exact List.mem_cons_self
    · exact List.mem_cons_of_mem _ (List.mem_map.2 ⟨a, ha, rfl⟩)

/-- The example meets the hypotheses of `C21_partial`, `C53_partial` and `C55_partial`. -/
theorem exMod_resolved : ∃ M, Writes (mkRegistry exMod exImpls 9) exNames M ∧ AllResolved M :=
  C21_partial exMod exImpls _ exNames exMod_printable exMod_isModule (forall_two (by decide +kernel) (by decide +kernel))
    (forall_two (not_called (by decide +kernel)) (not_called (by decide +kernel))) (forall_two (by decide +kernel) (by decide +kernel))

theorem exMod_client : ∃ M, Writes (mkRegistry exMod exImpls 9) exNames M ∧ ClientReached M := by
  refine C53_partial exMod exImpls _ exNames exMod_printable exMod_isModule (fun x hx => ⟨not_called ?_, ?_, ?_⟩)
  · revert x; decide +kernel
  · exact forall_two (by revert x; decide +kernel) (by revert x; decide +kernel)
  · exact forall_two (by revert x; decide +kernel) (by revert x; decide +kernel)

theorem exMod_noClash : ∃ M, Writes (mkRegistry exMod exImpls 9) exNames M ∧ NoClash M := by
  refine C55_partial exMod exImpls _ exNames exMod_printable exMod_isModule (by decide +kernel) (fun x => ?_) ?_
  · by_cases h1 : lit "Ns" = x
    · subst h1; decide +kernel
    · by_cases h2 : lit "Api" = x
      · subst h2; decide +kernel
      · simp [exImpls, h1, h2]
  · exact forall_two (by decide +kernel) (by decide +kernel)

/-- The right-hand side of `C55_exact` for the example. -/
example : exNames.map (declaredNames exMod exImpls) = [[lit "Kind"], [lit "User", lit "get", lit "watch"], [lit "reset"]] := by
  decide +kernel
example : ∀ x ∈ exNames, (declaredNames exMod exImpls x).Nodup := by decide +kernel

/-! ## The properties are false in general -/

theorem not_writes {r : Registry} {names : List Str} (h : (readModule (generate r names [])).isNone = true) (M : List Ns) :
    ¬ Writes r names M := by
  rintro ⟨text, h1, h2⟩
  rw [h1 [], List.nil_append, h2] at h
  cases h

theorem writes_check {r : Registry} {names : List Str} {M : List Ns} (hw : Writes r names M) {c : List Ns → Bool}
    (h : (readModule (generate r names [])).map c = some true) : c M = true := by
  obtain ⟨text, h1, h2⟩ := hw
  rw [h1 [], List.nil_append, h2] at h
  injection h

/-- `async fn delete(&mut self)` of `Api`. -/
def exDelete : List (Str × List RpcItem) := [(lit "Api", [⟨lit "delete", [], .method, .prim .unit, false⟩])]

/-- C52 and C22 are false: a function called like a reserved word of JavaScript makes the module invalid. -/
theorem C52_violated : ¬ C52_statement := by
  intro h
  obtain ⟨M, hM, _⟩ := h [] exDelete (mkRegistry [] exDelete 3) [lit "Api"] (mkRegistry_isModule (by decide +kernel))
  exact not_writes (by decide +kernel) M hM

theorem C22_violated : ¬ C22_statement := by
  intro h
  obtain ⟨M, hM, _⟩ := h [] exDelete (mkRegistry [] exDelete 3) [lit "Api"] (mkRegistry_isModule (by decide +kernel))
  exact not_writes (by decide +kernel) M hM

/-- A constant uses something other than `z` that is not a namespace. -/
def dangling (M : List Ns) : Bool :=
  M.any (fun N => N.items.any (fun i => match i with
    | .const _ e => e.uses.any (fun u => u.2.isSome && u.1 != lit "z" && target M N [] u.1 != .namespace)
    | _ => false))

theorem dangling_not {M : List Ns} (h : dangling M = true) : ¬ AllResolved M := by
  intro ha
  obtain ⟨N, hN, h⟩ := List.any_eq_true.1 h
  obtain ⟨i, hi, h⟩ := List.any_eq_true.1 h
  cases i with
  | const n e =>
    obtain ⟨u, hu, h⟩ := List.any_eq_true.1 h
    simp only [Bool.and_eq_true, bne_iff_ne, ne_eq] at h
    obtain ⟨⟨h1, h2⟩, h3⟩ := h
    rcases (ha N hN _ hi).1 (none, e) (by simp [Item.exprs]) u hu with hc | ⟨ps, e, _⟩ | ⟨y, _, ht, _⟩
    · rcases hc with e | e | e
      · exact h2 e
      · rw [e] at h1; cases h1
      · rw [e] at h1; cases h1
    · cases e
    · exact h3 ht
  | _ => cases h

/-- C21 is false: the example, without the namespace `Other`. -/
theorem C21_violated : ¬ C21_statement := by
  intro h
  obtain ⟨M, hM, ha⟩ := h exMod exImpls _ [lit "Ns", lit "Api"] exMod_printable exMod_isModule
  exact dangling_not (writes_check hM (by decide +kernel)) ha

/-- `struct Ns.Other { kind: Kind }` and the enum `Other.Kind`. -/
def exShadow : Program :=
  [ .struct (exStruct "Other" [exField "kind" (.named 1)]),
    .enum { exEnum "Kind" .external [exVariant "Guest" .unit []] with ns := lit "Other" } ]

theorem printable_two {d : StructDecl} {e : EnumDecl} {impls : List (Str × List RpcItem)} (hd : (goodDecl (.struct d) &&
      !typeOperators.contains d.ns && wellStyled (.struct d) && declarable d.name && !d.transparent && decide (d.style = .named) &&
      d.fields.all (fun f => !f.flatten) && d.attrs.isEmpty) = true)
    (he : (goodDecl (.enum e) && !typeOperators.contains e.ns && declarable e.name && e.variants.all (fun v => v.fields.isEmpty) &&
      e.attrs.isEmpty && e.from_.ty?.isNone) = true)
    (hi : ∀ b ∈ impls, isIdent b.1 = true ∧ bindable b.1 = true) (hf : ∀ b ∈ impls, ∀ f ∈ b.2, GoodFn f) :
    Printable [.struct d, .enum e] impls := by
  simp only [Bool.and_eq_true, Bool.not_eq_true', decide_eq_true_eq, List.all_eq_true, List.isEmpty_iff, Option.isNone_iff_eq_none] at hd he
  obtain ⟨⟨⟨⟨⟨⟨⟨d1, d2⟩, d3⟩, d4⟩, d5⟩, d6⟩, d7⟩, d8⟩ := hd
  obtain ⟨⟨⟨⟨⟨e1, e2⟩, e3⟩, e4⟩, e5⟩, e6⟩ := he
  refine ⟨forall_two d1 e1, forall_two d2 e2, forall_two d3 rfl, forall_two ?_ ?_, forall_two d4 e3, no_broken ?_ ?_,
    forall_two ?_ ?_, hi, hf⟩
  · exact ⟨fun _ f hf _ => d7 f hf, fun h => by rw [d5] at h; cases h⟩
  · exact fun v hv _ => e4 v hv
  · intro i s hi _ _
    match i, hi with
    | 0, hi => injection hi with hi; injection hi with hi; subst hi; exact ⟨fun h => (by rw [d6] at h; cases h), fun _ f hf _ => d7 f hf⟩
    | 1, hi => injection hi with hi; cases hi
    | i + 2, hi => simp at hi
  · intro i s hi
    match i, hi with
    | 0, hi => injection hi with hi; cases hi
    | 1, hi => injection hi with hi; injection hi with hi; subst hi; exact e6
    | i + 2, hi => simp at hi
  · intro s hs; rw [show (Decl.struct d).attrs = d.attrs from rfl, d8] at hs; cases hs
  · intro s hs; rw [show (Decl.enum e).attrs = e.attrs from rfl, e5] at hs; cases hs

/-- C21 is false: in `Ns`, `Other.Kind` refers to a property of the schema of the type `Other`. -/
theorem C21_violated_shadow : ¬ C21_statement := by
  intro h
  obtain ⟨M, hM, ha⟩ := h exShadow [] (mkRegistry exShadow [] 9) exNames
    (printable_two (by decide +kernel) (by decide +kernel) (by simp) (by simp)) (mkRegistry_isModule (by decide +kernel))
  exact dangling_not (writes_check hM (by decide +kernel)) ha

/-- `struct Ns.Array { items: Vec<u8> }` (and an enum). -/
def exArray : Program :=
  [ .struct (exStruct "Array" [exField "items" (.vec (.prim .u8))]), .enum (exEnum "Kind" .external [exVariant "Guest" .unit []]) ]

def shadowsArray (M : List Ns) : Bool :=
  M.any (fun N => N.items.any (Item.isType (lit "Array")) && N.items.any (fun i => match i with
    | .interface _ ps => ps.any (fun p => match p.2.2 with
      | .app [x] _ => x = lit "Array"
      | _ => false)
    | _ => false))

/-- C21 is false: the type of `items` is `Array<number>`, which refers to the type `Array` of the namespace. -/
theorem C21_violated_array : ¬ C21_statement := by
  intro h
  obtain ⟨M, hM, ha⟩ := h exArray [] (mkRegistry exArray [] 9) exNames
    (printable_two (by decide +kernel) (by decide +kernel) (by simp) (by simp)) (mkRegistry_isModule (by decide +kernel))
  have := writes_check hM (c := shadowsArray) (by decide +kernel)
  obtain ⟨N, hN, h⟩ := List.any_eq_true.1 this
  rw [Bool.and_eq_true] at h
  obtain ⟨h1, h⟩ := h
  obtain ⟨i, hi, h⟩ := List.any_eq_true.1 h
  cases i with
  | interface n ps =>
    obtain ⟨p, hp, h⟩ := List.any_eq_true.1 h
    have hn := (ha N hN _ hi).2 (.obj ps) (by simp [Item.types])
    cases hn with
    | obj _ hn =>
      have hn := hn p hp
      generalize p.2.2 = t at h hn
      cases hn with
      | app path ts hq _ =>
        match path, hq, h with
        | [x], hq, h =>
          have h : x = lit "Array" := of_decide_eq_true h
          subst h
          rcases hq with hk | ⟨_, hk⟩
          · exact absurd hk (by decide +kernel)
          · rw [hk] at h1; cases h1
      | _ => cases h
  | _ => cases h

/-- Something of the client code is hidden. -/
def hides (M : List Ns) : Bool :=
  M.any (fun N => N.items.any (fun i => i.exprs.any (fun x => x.2.uses.any (fun u =>
    (u.1 == lit "z" || u == (lit "request", none) || u == (lit "subscribe", none)) &&
      target M N (x.1.getD []) u.1 != .outside))))

theorem hides_not {M : List Ns} (h : hides M = true) : ¬ ClientReached M := by
  intro ha
  obtain ⟨N, hN, h⟩ := List.any_eq_true.1 h
  obtain ⟨i, hi, h⟩ := List.any_eq_true.1 h
  obtain ⟨x, hx, h⟩ := List.any_eq_true.1 h
  obtain ⟨u, hu, h⟩ := List.any_eq_true.1 h
  simp only [Bool.and_eq_true, Bool.or_eq_true, beq_iff_eq, bne_iff_ne, ne_eq] at h
  exact h.2 (ha N hN i hi x hx u hu (by unfold OfClient; rw [← or_assoc]; exact h.1))

/-- `async fn scale(&mut self, z: u32)` of `Api`. -/
def exZ : List (Str × List RpcItem) := [(lit "Api", [⟨lit "scale", [(lit "z", .prim .u32)], .method, .prim .unit, false⟩])]

theorem printable_none {b : Str × List RpcItem} (hi : isIdent b.1 = true ∧ bindable b.1 = true) (hf : ∀ f ∈ b.2, GoodFn f) :
    Printable [] [b] := by
  refine ⟨by simp [GoodNames], by simp [GoodTypeNames], by simp [WellStyled], by simp, by simp [Declarable],
    no_broken (by simp) (by simp), by simp, ?_, ?_⟩
  · intro c hc; rw [List.mem_singleton] at hc; subst hc; exact hi
  · intro c hc; rw [List.mem_singleton] at hc; subst hc; exact hf

theorem forall_one {α : Type} {p : α → Prop} {a : α} (ha : p a) : ∀ x ∈ [a], p x := by
  intro x hx
  rw [List.mem_singleton] at hx
  subst hx
  exact ha

/-- C53 is false: in the stub of `scale`, `z` is the argument. -/
theorem C53_violated : ¬ C53_statement := by
  intro h
  obtain ⟨M, hM, ha⟩ := h [] exZ (mkRegistry [] exZ 3) exNames
    (printable_none (by decide +kernel) (forall_one (goodFn_of (by decide +kernel)))) (mkRegistry_isModule (by decide +kernel))
  exact hides_not (writes_check hM (by decide +kernel)) ha

/-- `async fn request(&mut self)` of `Api`. -/
def exRequest : List (Str × List RpcItem) := [(lit "Api", [⟨lit "request", [], .method, .prim .unit, false⟩])]

/-- C53 is false: the stub of `request` calls itself. -/
theorem C53_violated_request : ¬ C53_statement := by
  intro h
  obtain ⟨M, hM, ha⟩ := h [] exRequest (mkRegistry [] exRequest 3) exNames
    (printable_none (by decide +kernel) (forall_one (goodFn_of (by decide +kernel)))) (mkRegistry_isModule (by decide +kernel))
  exact hides_not (writes_check hM (by decide +kernel)) ha

/-- `struct Ns.foo { id: u32 }` (and an enum). -/
def exFoo : Program :=
  [ .struct (exStruct "foo" [exField "id" (.prim .u32)]), .enum (exEnum "Kind" .external [exVariant "Guest" .unit []]) ]

/-- `async fn foo(&mut self)` of `Ns`. -/
def exFooImpls : List (Str × List RpcItem) := [(lit "Ns", [⟨lit "foo", [], .method, .prim .unit, false⟩])]

/-- C55 is false: `foo` is declared as a constant and as a function. -/
theorem C55_violated : ¬ C55_statement := by
  intro h
  obtain ⟨M, hM, _, ha⟩ := h exFoo exFooImpls (mkRegistry exFoo exFooImpls 9) exNames
    (printable_two (by decide +kernel) (by decide +kernel) (forall_one (by decide +kernel))
      (forall_one (forall_one (goodFn_of (by decide +kernel)))))
    (mkRegistry_isModule (by decide +kernel)) (by decide +kernel) (fun x => by
      by_cases h1 : lit "Ns" = x
      · subst h1; decide +kernel
      · simp [exFooImpls, h1])
  have := writes_check hM (c := fun M => M.any (fun N => 1 < (N.items.filter (Item.isValue (lit "foo"))).length)) (by decide +kernel)
  obtain ⟨N, hN, h⟩ := List.any_eq_true.1 this
  have := (ha N hN (lit "foo")).1
  have := of_decide_eq_true h
  omega

end Verif.Props
