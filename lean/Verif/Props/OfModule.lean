import Verif.Ts.Env
import Verif.Props.Agree
import Verif.Props.Sound
import Verif.Props.Complete
import Verif.Props.Written
import Verif.Props.EndToEnd

/-!
# C04, C05, C06 and C51 of the generated module

The same properties about the file that `generate()` writes: what its constants and types of the same name have to do with
each other and with serde. `moduleSchemas M`, `moduleTypes M` (`Verif/Spec/Backend.lean`): the constants and types
that the namespaces of the file declare.
-/

namespace Verif.Props
open Verif Verif.Schema Verif.SchemaSpec Verif.Js Verif.Ts Verif.Spec Verif.Codegen Verif.Zod

section
variable {P : Program} {impls : List (Str × List RpcItem)} {names : List Str} {M : List Ns}

theorem mem_itemsOf {ns : Str} {i : Item} (h : i ∈ itemsOf M ns) : ∃ N ∈ M, N.name = ns ∧ i ∈ N.items := by
  obtain ⟨N, hN, hi⟩ := List.mem_flatMap.1 h
  obtain ⟨hN, e⟩ := List.mem_filter.1 hN
  exact ⟨N, hN, by simpa using e, hi⟩

theorem stub_no_const {x : Str} {ns : Str} {f : RpcItem} {i : Item} (h : StubItem P ns f i) : i.const? x = none ∧ i.type? x = none := by
  obtain ⟨ps, es, t, T, _, _, _, _, rfl⟩ := h
  exact ⟨rfl, rfl⟩

/-- A constant of the module is the schema of a type of the program. -/
theorem const_declared (h : ModuleOf P impls names M) {N : Ns} (hN : N ∈ M) {j : Item} (hj : j ∈ N.items) {x : Str} {e : JsExpr}
    (he : j.const? x = some e) : ∃ (i : Nat) (d : Decl), P[i]? = some d ∧ d.ns = N.name ∧ d.name = x := by
  obtain ⟨ds, fs, ls, is, h1, _, h3, h4, h5⟩ := h.items N hN
  rw [h5, List.mem_append] at hj
  rcases hj with hj | hj
  · obtain ⟨l, hl, hj⟩ := List.mem_flatten.1 hj
    obtain ⟨p, hp, s, e', t, T, k, _, _, _, _, hk, rfl⟩ := Zod.All2.mem_right h3 hl
    obtain ⟨hp, hns⟩ := List.mem_filter.1 (h1.subset hp)
    have hd := List.mem_zipIdx_iff_getElem?.1 hp
    refine ⟨p.2, p.1, hd, by simpa using hns, ?_⟩
    simp only [List.mem_cons, List.not_mem_nil, or_false] at hj
    rcases hj with rfl | rfl
    · simp only [Item.const?] at he
      split at he
      · assumption
      · cases he
    · cases hk <;> cases he
  · obtain ⟨f, _, hs⟩ := Zod.All2.mem_right h4 hj
    rw [(stub_no_const hs).1] at he
    cases he

/-- What the module declares as the schema of a name is the schema of the type of that name. -/
theorem schema_declared (h : ModuleOf P impls names M) {ns x : Str} {z : ZSchema}
    (hz : (moduleSchemas M).const ns x = some z) : ∃ (i : Nat) (d : Decl), P[i]? = some d ∧ d.ns = ns ∧ d.name = x := by
  have hz : (match ((itemsOf M ns).findSome? (Item.const? x)).bind evalE with
    | some (.schema z) => some z
    | _ => none) = some z := hz
  cases hf : (itemsOf M ns).findSome? (Item.const? x) with
  | none => rw [hf] at hz; cases hz
  | some e =>
    obtain ⟨j, hj, he⟩ := List.exists_of_findSome?_eq_some hf
    obtain ⟨N, hN, rfl, hj'⟩ := mem_itemsOf hj
    exact const_declared h hN hj' he

end

/-- **C06 of the module, all types.** In the file that `generate()` writes, for a name under which it declares a
schema and a type: what the schema accepts, and what parsing returns for it, are values of the type, except that a property
that is not optional may be missing if its type allows `undefined`. -/
theorem C06_module_lenient_partial (P : Program) (impls : List (Str × List RpcItem)) (r : Registry) (names : List Str) (M : List Ns)
    (hp : Printable P impls) (hm : Codegen.IsModule P impls r) (hw : Writes r names M) (hc : NoClash M)
    (hns : ∀ d ∈ P, d.ns ∈ names) (ns x : Str) (z : ZSchema) (T : TsType)
    (hz : (moduleSchemas M).const ns x = some z) (hT : moduleTypes M ns x = some T) (v res : JsVal)
    (hv : ParsesTo (moduleSchemas M) z v res) :
    Inhabits (moduleTypes M) true T v ∧ Inhabits (moduleTypes M) true T res := by
  obtain ⟨M', hM', hmo⟩ := writes_of hp hm names
  have := writes_unique hw hM'
  subst this
  obtain ⟨i, d, hd, rfl, rfl⟩ := schema_declared hmo hz
  obtain ⟨s, hs, e⟩ := schemas_of_module hmo hc hns i d hd
  obtain ⟨s', hs', e'⟩ := types_of_module hmo hc hns i d hd
  exact C06_lenient_partial P hp.names hp.typeNames hp.styled hp.plain _ _ (schemas_of_module hmo hc hns)
    (types_of_module hmo hc hns) .schema .typeDef (.inl rfl) (.inl rfl) (.named i) s s' hs hs' z T (e.symm.trans hz)
    (e'.symm.trans hT) v res hv

/-- **C06 of the module, strict.** Without that exception, if no field without default that is written as a property has
a type that allows `undefined`. -/
theorem C06_module_strict_partial (P : Program) (impls : List (Str × List RpcItem)) (r : Registry) (names : List Str) (M : List Ns)
    (hp : Printable P impls) (hm : Codegen.IsModule P impls r) (hw : Writes r names M) (hc : NoClash M)
    (hns : ∀ d ∈ P, d.ns ∈ names) (hs : ∀ d ∈ P, StrictDecl P d) (ns x : Str) (z : ZSchema) (T : TsType)
    (hz : (moduleSchemas M).const ns x = some z) (hT : moduleTypes M ns x = some T) (v res : JsVal)
    (hv : ParsesTo (moduleSchemas M) z v res) :
    Inhabits (moduleTypes M) false T v ∧ Inhabits (moduleTypes M) false T res := by
  obtain ⟨M', hM', hmo⟩ := writes_of hp hm names
  have := writes_unique hw hM'
  subst this
  obtain ⟨i, d, hd, rfl, rfl⟩ := schema_declared hmo hz
  obtain ⟨s, hss, e⟩ := schemas_of_module hmo hc hns i d hd
  obtain ⟨s', hs', e'⟩ := types_of_module hmo hc hns i d hd
  exact C06_strict_partial P hp.names hp.typeNames hp.styled hp.plain hs _ _ (schemas_of_module hmo hc hns)
    (types_of_module hmo hc hns) .schema .typeDef (.inl rfl) (.inl rfl) (.named i) (.named i) s s' hss hs' z T (e.symm.trans hz)
    (e'.symm.trans hT) v res hv

theorem all2_args {α β γ δ : Type} {R : α → β → Prop} {S : α → γ → Prop} {U : γ → δ → Prop} {p : α → Prop} :
    ∀ {as : List α} {bs : List β} {cs : List γ} {ds : List δ}, All2 R as bs → All2 S as cs → All2 U cs ds → (∀ a ∈ as, p a) →
      All2 (fun b d => ∃ a c, p a ∧ R a b ∧ S a c ∧ U c d) bs ds := by
  intro as
  induction as with
  | nil => intro bs cs ds h1 h2 h3 _; cases h1; cases h2; cases h3; exact .nil
  | cons a as ih =>
    intro bs cs ds h1 h2 h3 hp
    cases h1 with
    | cons r1 h1 =>
      cases h2 with
      | cons r2 h2 =>
        cases h3 with
        | cons r3 h3 =>
          exact .cons ⟨_, _, hp _ (by simp), r1, r2, r3⟩ (ih h1 h2 h3 (fun x hx => hp x (by simp [hx])))

theorem all2_comp {α β γ : Type} {R : α → β → Prop} {S : β → γ → Prop} :
    ∀ {as : List α} {bs : List β} {cs : List γ}, All2 R as bs → All2 S bs cs → All2 (fun a c => ∃ b, R a b ∧ S b c) as cs := by
  intro as bs cs hr
  induction hr generalizing cs with
  | nil => intro hs; cases hs; exact .nil
  | cons r _ ih =>
    intro hs
    cases hs with
    | cons s hs => exact .cons ⟨_, r, s⟩ (ih hs)

theorem all2_imp {α β : Type} {R S : α → β → Prop} (h : ∀ a b, R a b → S a b) :
    ∀ {as : List α} {bs : List β}, All2 R as bs → All2 S as bs := by
  intro as bs hr
  induction hr with
  | nil => exact .nil
  | cons r _ ih => exact .cons (h _ _ r) ih

/-- **C06 of the arguments.** In the body of a client function of the file, the call of `z.tuple([..]).parse` lets
arguments `l` pass only if there are as many as the function has parameters and each is a value of the declared type
(for programs as in C06, strict, also without that exception). -/
theorem C06_arguments_partial (P : Program) (impls : List (Str × List RpcItem)) (r : Registry) (names : List Str) (M : List Ns)
    (lenient : Bool) (hp : Printable P impls) (hm : Codegen.IsModule P impls r) (hw : Writes r names M) (hc : NoClash M)
    (hns : ∀ d ∈ P, d.ns ∈ names) (N : Ns) (hN : N ∈ M) (F : Fn) (hF : Item.func F ∈ N.items)
    (hl : lenient = true ∨ (∀ d ∈ P, StrictDecl P d) ∧
      ∀ x ∈ impls, x.1 = N.name → ∀ f ∈ x.2, f.ident = F.name → ∀ a ∈ f.args, Strict P a.2)
    (ss : List Stmt) (es : List JsExpr) (last : Stmt) (hbody : F.body = ss ++ [.expr (validation es), last])
    (zs : List ZSchema) (hzs : All2 (fun e z => evalE e = some (.schema z)) es zs)
    (l : List JsVal) (hval : Accepts (moduleSchemas M) (.tuple zs) (.arr l)) :
    All2 (fun p v => Inhabits (moduleTypes M) lenient p.2 v) F.params l := by
  obtain ⟨M', hM', hmo⟩ := writes_of hp hm names
  have := writes_unique hw hM'
  subst this
  obtain ⟨x, hx, hxn, f, hfx, ps, es', t, T', h1, h2, h3, h4, h5⟩ := func_stub hmo hN hF
  injection h5 with h5
  have hfb : (ps.map (fun p => Stmt.expr (.var p.1)) ++ [.expr (validation es')]) ++ [.ret (transmission f.kind N.name f.ident)] =
      (ss ++ [.expr (validation es)]) ++ [last] := by
    rw [h5] at hbody
    rw [List.append_assoc, List.append_assoc]
    exact hbody
  have hb1 := (append_last (append_last hfb).1).2
  simp only [validation, Stmt.expr.injEq, JsExpr.call.injEq, JsExpr.member.injEq, List.cons.injEq, JsExpr.arr.injEq, and_true,
    true_and] at hb1
  subst hb1
  have hps : F.params = ps := by rw [h5]; rfl
  have hfn : f.ident = F.name := by rw [h5]; rfl
  obtain ⟨l', e, hacc⟩ := tuple_iff.1 hval
  injection e with e
  subst e
  rw [hps]
  refine all2_imp ?_ (all2_args (p := fun a => lenient = true ∨ Strict P a.2) h1 (all2_comp h2 hzs) hacc ?_)
  · rintro p v ⟨a, z, hs, ⟨_, s', hs', hT⟩, ⟨e, ⟨s, hs1, hs2⟩, hz⟩, ⟨res, hv⟩⟩
    have hz' : readSchema s = some z := by
      unfold readSchema
      rw [hs2]
      simp only [hz]
    exact (C06_agree hp.names hp.typeNames hp.styled hp.plain (schemas_of_module hmo hc hns)
      (types_of_module hmo hc hns) (hl.imp id (·.1)) (.inr rfl) (.inr rfl) hs hs1 hs' hz' hT hv).1
  · intro a ha
    exact hl.imp id (fun h => h.2 x hx hxn f hfx hfn a ha)

/-- **C04 of the module.** Under the hypotheses of C04, for a type of the program: what the schema of its name in the
file accepts is, after parsing and printing as JSON, a document that serde accepts for the type. -/
theorem C04_module_partial (wide : Bool) (P : Program) (impls : List (Str × List RpcItem)) (r : Registry) (names : List Str)
    (M : List Ns) (hp : Printable P impls) (hm : Codegen.IsModule P impls r) (hw : Writes r names M) (hc : NoClash M)
    (hns : ∀ d ∈ P, d.ns ∈ names) (hs : ∀ d ∈ P, SoundDecl wide P d) (i : Nat) (d : Decl)
    (hd : P[i]? = some d) (z : ZSchema) (hz : (moduleSchemas M).const d.ns d.name = some z) (v res : JsVal)
    (hv : ParsesTo (moduleSchemas M) z v res) (hpr : plainJs wide res = true) :
    (res = .undefined ∧ De P (.named i) .null) ∨ ∃ j, stringify res = some (some j) ∧ De P (.named i) j := by
  obtain ⟨M', hM', hmo⟩ := writes_of hp hm names
  have := writes_unique hw hM'
  subst this
  obtain ⟨s, hss, e⟩ := schemas_of_module hmo hc hns i d hd
  exact C04_partial wide P _ hp.names hp.styled hp.plain hs (schemas_of_module hmo hc hns) .schema (.inl rfl)
    (.named i) (.named i) s hss z (e.symm.trans hz) v res hv hpr

/-- **C05 of the module.** Under the hypotheses of C05: the file declares a schema under the name of every type of the
program, and it accepts what serde writes for a value of the type. -/
theorem C05_module_partial (P : Program) (impls : List (Str × List RpcItem)) (r : Registry) (names : List Str)
    (M : List Ns) (hp : Printable P impls) (hm : Codegen.IsModule P impls r) (hw : Writes r names M) (hc : NoClash M)
    (hns : ∀ d ∈ P, d.ns ∈ names) (hnt : ∀ d ∈ P, NoThrow d) (hg : Guarded P) (hcd : ∀ d ∈ P, CompleteDecl d)
    (i : Nat) (d : Decl) (hd : P[i]? = some d) :
    ∃ z, (moduleSchemas M).const d.ns d.name = some z ∧
      ∀ j, Ser P false (.named i) j → Accepts (moduleSchemas M) z (fromJson j) := by
  obtain ⟨M', hM', hmo⟩ := writes_of hp hm names
  have := writes_unique hw hM'
  subst this
  have hE := schemas_of_module hmo hc hns
  obtain ⟨s, hss, e⟩ := hE i d hd
  obtain ⟨z, hz⟩ := C03_partial P hp.names hp.styled hp.plain hnt .schema (.inl rfl) (.named i) rfl s hss
  exact ⟨z, e.trans hz, fun j hj => C05_partial P _ hp.names hp.styled hp.plain hnt hg hcd hE .schema (.inl rfl) (.named i)
    (.named i) s hss z hz j hj⟩

/-- **C51 of the module.** Under the hypotheses of C51: the file declares a type under the name of every type of the
program, and what serde writes for a value of the type is a value of it. -/
theorem C51_module_partial (P : Program) (impls : List (Str × List RpcItem)) (r : Registry) (names : List Str)
    (odd lenient : Bool) (M : List Ns) (hp : Printable P impls) (hm : Codegen.IsModule P impls r) (hw : Writes r names M)
    (hc : NoClash M) (hns : ∀ d ∈ P, d.ns ∈ names) (hf : NoFlattenedUnion P) (hT : ∀ d ∈ P, TypedDecl P odd lenient d)
    (i : Nat) (d : Decl) (hd : P[i]? = some d) :
    ∃ T, moduleTypes M d.ns d.name = some T ∧
      ∀ j, DistinctKeys j → Ser P odd (.named i) j → Inhabits (moduleTypes M) lenient T (fromJson j) := by
  obtain ⟨M', hM', hmo⟩ := writes_of hp hm names
  have := writes_unique hw hM'
  subst this
  have hD := types_of_module hmo hc hns
  obtain ⟨s, hss, e⟩ := hD i d hd
  obtain ⟨n, hn⟩ := hss
  obtain ⟨T, h1, _⟩ := eval_meant hp.names hp.typeNames hp.plain hp.styled hf n .typeDef (.named i) s (.inl rfl) hn
  have hr := (eval_agreeT hp.names hp.typeNames hp.styled n .typeDef (.named i) s (.inl rfl) hn).read
  refine ⟨_, e.trans hr, fun j hdk hj => ?_⟩
  exact C51_partial P odd lenient hp.names hp.typeNames hp.styled hp.plain hf hT _ hD .typeDef (.inl rfl) (.named i)
    (.named i) s _ ⟨n, hn⟩ hr j hdk hj

/-! ## A case that is covered -/

theorem exHub_strict : ∀ d ∈ exHub, StrictDecl exHub d := by
  refine forall_one ⟨(by intro t h; cases h), ?_⟩
  show ∀ f ∈ [exField "id" (.prim .u32), exField "name" (.prim .string)], _
  exact forall_two ⟨.prim _, fun _ => .inr (.prim _)⟩ ⟨.prim _, fun _ => .inr (.prim _)⟩

theorem exHub_noThrow : ∀ d ∈ exHub, NoThrow d := by
  refine forall_one ?_
  simp [NoThrow, exStruct, exField, declTypes, fieldTypes, From.ty?, noBool, keptNames, goodKeys]
  decide +kernel

theorem exHub_guarded : Guarded exHub := by
  intro i
  rw [← acc_iff_not_endless]
  refine ⟨_, fun u hu => ?_⟩
  exfalso
  cases hu with
  | from_ _ d t hd ht =>
    match i, hd with
    | 0, hd => cases hd; cases ht
    | n + 1, hd => simp [exHub] at hd
  | struct _ s f hd _ ht hk =>
    match i, hd with
    | 0, hd => cases hd; rcases ht with ht | ht <;> cases ht
    | n + 1, hd => simp [exHub] at hd
  | untagged _ e v f hd =>
    match i, hd with
    | 0, hd => cases hd
    | n + 1, hd => simp [exHub] at hd

theorem exHub_completeDecl : ∀ d ∈ exHub, CompleteDecl d := by
  refine forall_one ⟨rfl, show _ ∧ _ ∧ _ from ⟨by decide, ⟨?_, by decide +kernel, ?_⟩, ?_⟩⟩
  · show ∀ f ∈ [exField "id" (.prim .u32), exField "name" (.prim .string)], CompleteField _ f
    exact forall_two ⟨rfl, fun _ => rfl, (by intro h; cases h), .inl ⟨.prim _ rfl, rfl, by rintro ⟨⟩⟩⟩
      ⟨rfl, fun _ => rfl, (by intro h; cases h), .inl ⟨.prim _ rfl, rfl, by rintro ⟨⟩⟩⟩
  · exact forall_two (p := fun f : Field => f.flatten = false) rfl rfl
  · exact forall_two (p := fun f : Field => f.flatten = false) rfl rfl

theorem userDoc_ser (n : UInt32) : Ser exHub false (.named 0) (userDoc n) := by
  refine .struct 0 _ _ rfl rfl rfl (.named _ _ ?_)
  exact .field (exField "id" (.prim .u32)) _ _ (.num (.int n.toNat)) rfl rfl rfl
    (.int _ 0 4294967295 n.toNat (Or.inl rfl) (by omega) (by have := n.toNat_lt; omega))
    (.field (exField "name" (.prim .string)) _ _ (.str (lit "ann")) rfl rfl rfl (.string _) .nil)

/-- The user `{ id: 7, name: "ann" }` passes the schema `Ns.User` of the file, is a value of the type `Ns.User` of the
file, and is accepted by serde. -/
example : ∃ M z T res j, Writes (mkRegistry exHub exHubImpls 9) (backendNames exHubBackend) M ∧
    (moduleSchemas M).const (lit "Ns") (lit "User") = some z ∧ moduleTypes M (lit "Ns") (lit "User") = some T ∧
    ParsesTo (moduleSchemas M) z (fromJson (userDoc 7)) res ∧ Inhabits (moduleTypes M) false T res ∧
    stringify res = some (some j) ∧ De exHub (.named 0) j := by
  obtain ⟨M, hw, hc⟩ := exHub_noClash
  have hns : ∀ d ∈ exHub, d.ns ∈ backendNames exHubBackend := forall_one (by decide +kernel)
  obtain ⟨z, hz, hacc⟩ := C05_module_partial _ _ _ _ M exHub_printable exHub_isModule hw hc hns exHub_noThrow exHub_guarded
    exHub_completeDecl 0 _ rfl
  obtain ⟨T, hT, _⟩ := C51_module_partial _ _ _ _ false false M exHub_printable exHub_isModule hw hc hns exHub_noUnion
    (exHub_typed false) 0 _ rfl
  obtain ⟨res, hres⟩ := hacc (userDoc 7) (userDoc_ser 7)
  have hr := C06_module_strict_partial _ _ _ _ M exHub_printable exHub_isModule hw hc hns exHub_strict _ _ z T hz hT
    _ _ hres
  have e : res = fromJson (userDoc 7) := by
    obtain ⟨M', hM', hmo⟩ := writes_of exHub_printable exHub_isModule (backendNames exHubBackend)
    have := writes_unique hw hM'
    subst this
    obtain ⟨s, hs, e⟩ := schemas_of_module hmo hc hns 0 _ rfl
    obtain ⟨s', hs'⟩ : ∃ s', eval exHub 6 .schema (.named 0) = some s' := ⟨_, rfl⟩
    have := returns_unique hs ⟨6, hs'⟩
    subst this
    have hz' := e.symm.trans hz
    rw [(eval_agree exHub_printable.names exHub_printable.styled 6 .schema (.named 0) _ (.inl rfl) hs').read] at hz'
    obtain ⟨z', e'⟩ : ∃ z', zOf exHub 6 .schema (.named 0) = some z' ∧
        ∀ E : ZEnv, parse E 4 z' (fromJson (userDoc 7)) = some (some (fromJson (userDoc 7))) := by
      refine ⟨?z, ?h, ?g⟩
      case h => rfl
      case g => exact fun _ => rfl
    rw [e'.1] at hz'
    injection hz' with hz'
    subst hz'
    exact parsesTo_unique hres ⟨4, e'.2 _⟩
  rcases C04_module_partial false _ _ _ _ M exHub_printable exHub_isModule hw hc hns exHub_sound 0 _ rfl z hz _ _ hres
    (by rw [e]; decide +kernel) with h | ⟨j, h1, h2⟩
  · exact absurd (e.symm.trans h.1) (by intro h; cases h)
  · exact ⟨M, z, T, res, j, hw, hz, hT, hres, hr.2, h1, h2⟩

/-- `find(7)` passes validation: the hypotheses of `C06_arguments_partial` are met. -/
example : ∃ M N F ss es last zs,
    Writes (mkRegistry exHub exHubImpls 9) (backendNames exHubBackend) M ∧ N ∈ M ∧ Item.func F ∈ N.items ∧
    F.body = ss ++ [.expr (validation es), last] ∧ All2 (fun e z => evalE e = some (.schema z)) es zs ∧
    Accepts (moduleSchemas M) (.tuple zs) (.arr [.num (.fin (7 : Int))]) ∧
    All2 (fun p v => Inhabits (moduleTypes M) false p.2 v) F.params [.num (.fin (7 : Int))] := by
  obtain ⟨M, hw, hc⟩ := exHub_noClash
  obtain ⟨M', hw', hmo⟩ := writes_of exHub_printable exHub_isModule (backendNames exHubBackend)
  have := writes_unique hw hw'
  subst this
  obtain ⟨N, hN, eN, i, hi, ps, es, t, T, h1, h2, h3, h4, rfl⟩ := stub_mem hmo (b := (lit "Ns", [exFind, exWatch])) (List.mem_singleton.2 rfl)
    (by decide +kernel) (f := exFind) List.mem_cons_self
  obtain ⟨e, z, he, hz, hpz⟩ := exFind_schema
  have hes : es = [e] := by
    match es, h2 with
    | [e'], .cons ⟨x, hx, hx'⟩ .nil =>
      obtain ⟨y, hy, hy'⟩ := he
      have e0 := Schema.returns_unique hx hy
      subst e0
      rw [hx'] at hy'
      injection hy' with hy'
      rw [hy']
  subst hes
  have hv : Accepts (moduleSchemas M) (.tuple [z]) (.arr [.num (.fin (7 : Int))]) := ⟨_, hpz _⟩
  exact ⟨M, N, _, ps.map (fun p => .expr (.var p.1)), [e], _, [z], hw, hN, hi, rfl, .cons hz .nil, hv,
    C06_arguments_partial exHub exHubImpls _ (backendNames exHubBackend) M false exHub_printable exHub_isModule hw hc
      (forall_one (by decide +kernel)) N hN _ hi
      (.inr ⟨exHub_strict, forall_one (fun _ => forall_two (fun _ => forall_one (.prim _)) (fun _ => forall_one (.prim _)))⟩)
      _ [e] _ rfl [z] (.cons hz .nil) _ hv⟩

end Verif.Props
