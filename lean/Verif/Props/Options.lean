import Verif.Props.Module

/-!
# C62: the module with prefixes and suffixes

`generate_with_options` puts prefixes and suffixes on the names it declares. What it writes is still a module with
everything in its place, but the references in schemas and types keep the names without them.
-/

namespace Verif.Props
open Verif Verif.Schema Verif.SchemaSpec Verif.Js Verif.Ts Verif.Spec Verif.Codegen

/-- `M` is the module that `generate_with_options` writes after the client code. -/
def WritesWith (o : Options) (r : Registry) (names : List Str) (M : List Ns) : Prop :=
  ∃ text, (∀ client, generateWithOptions r names client o = client ++ text) ∧ readModule text = some M

theorem writesWith_unique {o : Options} {r : Registry} {names : List Str} {M M' : List Ns} (h : WritesWith o r names M)
    (h' : WritesWith o r names M') : M = M' := by
  obtain ⟨t, h1, h2⟩ := h
  obtain ⟨t', h1', h2'⟩ := h'
  have : t = t' := by have := h1 []; rw [h1' []] at this; simpa using this.symm
  rw [this, h2'] at h2
  injection h2 with h2
  exact h2.symm

theorem writesWith_default {r : Registry} {names : List Str} {M : List Ns} :
    WritesWith Options.default r names M ↔ Writes r names M := Iff.rfl

/-- The full property: with options that leave all names declarable, the module declares everything under the
affixed names, and every reference refers to a declaration (as without options, C21: if the namespaces of all types
belong to the backend and no name is hidden by another). -/
def C62_statement : Prop :=
  ∀ (P : Program) (impls : List (Str × List RpcItem)) (o : Options) (r : Registry) (names : List Str), Printable P impls →
    GoodAffixes o P → IsModule P impls r → (∀ d ∈ P, d.ns ∈ names) → (∀ d ∈ P, ¬ Called P impls d.ns) →
    (∀ d ∈ P, constName o d.name ∉ P.map (·.ns)) →
    (∀ d ∈ P, d.name ∉ outsideTypes ∧ o.prefixType ++ d.name ++ o.suffixType ∉ outsideTypes ∧
      o.prefixInterface ++ d.name ++ o.suffixInterface ∉ outsideTypes) →
    ∃ M, WritesWith o r names M ∧ ModuleWith o P impls names M ∧ AllResolved M

/-- **C62, what is written.** Whatever the options: if the names can still be declared, a module is written that
has one namespace for each of the backend's namespaces with types or functions, in which exactly the registered types
are declared, under the affixed names, and exactly the registered functions, under their own names. -/
theorem C62_partial (P : Program) (impls : List (Str × List RpcItem)) (hp : Printable P impls) (o : Options) (ho : GoodAffixes o P)
    (r : Registry) (names : List Str) (h : IsModule P impls r) : ∃ M, WritesWith o r names M ∧ ModuleWith o P impls names M := by
  obtain ⟨text, M, h1, h2, h3⟩ := module_reads_with hp ho h names []
  refine ⟨M, ⟨text, fun client => ?_, h2⟩, h3⟩
  obtain ⟨a, a1, a2, a3⟩ := C18_options r names [] o
  obtain ⟨b, b1, b2, b3⟩ := C18_options r names client o
  rw [b3, C18_blocks_unique b1 a1 b2 a2]
  rw [a3] at h1
  simp only [List.nil_append] at h1
  rw [h1]

/-- **C62, the default options.** They are the same as no options (`generate`). -/
theorem C62_default (r : Registry) (names : List Str) (client : Str) :
    generateWithOptions r names client ⟨[], [], [], [], [], []⟩ = generate r names client := rfl

/-! ## References -/

/-- What the declarations of a namespace are called. -/
theorem item_namesWith {o : Options} {P : Program} {impls : List (Str × List RpcItem)} {names : List Str} {M : List Ns}
    (h : ModuleWith o P impls names M) {N : Ns} (hN : N ∈ M) {i : Item} (hi : i ∈ N.items) :
    (∃ d ∈ P, d.ns = N.name ∧ ∃ e, i = .const (constName o d.name) e) ∨
    (∃ d ∈ P, d.ns = N.name ∧ ((∃ T, i = .alias (o.prefixType ++ d.name ++ o.suffixType) T) ∨
      ∃ ps, i = .interface (o.prefixInterface ++ d.name ++ o.suffixInterface) ps)) ∨ ∃ f, i = .func f := by
  obtain ⟨ds, fs, ls, is, h1, h2, h3, h4, h5⟩ := h.items N hN
  rw [h5, List.mem_append] at hi
  rcases hi with hi | hi
  · obtain ⟨l, hl, hi⟩ := List.mem_flatten.1 hi
    obtain ⟨x, hx, s, e, t, T, j, _, _, _, _, h6, rfl⟩ := Zod.All2.mem_right h3 hl
    have hx := List.mem_filter.1 (h1.subset hx)
    have hd : x.1 ∈ P := List.mem_of_getElem? (List.mem_zipIdx_iff_getElem?.1 hx.1)
    have hns : x.1.ns = N.name := by simpa using hx.2
    simp only [List.mem_cons, List.not_mem_nil, or_false] at hi
    rcases hi with rfl | rfl
    · exact Or.inl ⟨x.1, hd, hns, e, rfl⟩
    · refine Or.inr (Or.inl ⟨x.1, hd, hns, ?_⟩)
      cases h6 with
      | alias => exact Or.inl ⟨_, rfl⟩
      | interface ps _ => exact Or.inr ⟨_, rfl⟩
  · obtain ⟨f, _, ps, es, t, T, _, _, _, _, rfl⟩ := Zod.All2.mem_right h4 hi
    exact Or.inr (Or.inr ⟨_, rfl⟩)

/-- **C62, references.** If the references in the module resolve, then for each argument whose type is a derived
type there is, in the namespace of the type, a type whose *affixed* name is the type's *own* name: references do not
get prefixes and suffixes. -/
theorem C62_references (P : Program) (impls : List (Str × List RpcItem)) (hp : Printable P impls) (o : Options) (ho : GoodAffixes o P)
    (r : Registry) (names : List Str) (h : IsModule P impls r) (M : List Ns) (hM : WritesWith o r names M) (hres : AllResolved M)
    (b : Str × List RpcItem) (hb : b ∈ impls) (hn : b.1 ∈ names) (f : RpcItem) (hf : f ∈ b.2) (x : Str) (j : Nat)
    (ha : (x, Ty.named j) ∈ f.args) (d : Decl) (hd : P[j]? = some d) (hfrom : NoFrom d) :
    (∃ d' ∈ P, d'.ns = d.ns ∧ constName o d'.name = d.name) ∧
    ∃ d' ∈ P, d'.ns = d.ns ∧ (o.prefixType ++ d'.name ++ o.suffixType = d.name ∨
      o.prefixInterface ++ d'.name ++ o.suffixInterface = d.name) := by
  obtain ⟨M', hM', hmod⟩ := C62_partial P impls hp o ho r names h
  rw [writesWith_unique hM hM'] at hres
  obtain ⟨N, hN, e⟩ := List.mem_map.1 ((hmod.names b.1).2 ⟨hn, Or.inr ⟨b, hb, rfl, fun h0 => by rw [h0] at hf; cases hf⟩⟩)
  obtain ⟨ds, fs, ls, is, _, h2, _, h4, h5⟩ := hmod.items N hN
  have hff : f ∈ fs := h2.symm.subset (List.mem_flatMap.2 ⟨b, List.mem_filter.2 ⟨hb, by simpa using e.symm⟩, hf⟩)
  obtain ⟨i, hi, ps, es, t, T, hps, hes, _, _, rfl⟩ := Zod.All2.mem_left h4 hff
  have hi : Item.func (stub f.kind N.name f.ident ps es T) ∈ N.items := by rw [h5]; exact List.mem_append_right _ hi
  have hdP : d ∈ P := List.mem_of_getElem? hd
  have hgood := good_parts hp.names hdP
  have hg : isIdent d.ns = true ∧ reserved.contains d.ns = false ∧ d.ns ≠ lit "z" := by
    have := hgood.1
    unfold goodNs at this
    simp only [Bool.and_eq_true, Bool.not_eq_true', bne_iff_ne, ne_eq] at this
    exact ⟨this.1.1, this.1.2, this.2⟩
  have hderive : ∃ impl, derive d = .ok impl := by
    obtain ⟨ms, _, hlen, hms⟩ := h.types
    obtain ⟨hj, _⟩ := List.getElem?_eq_some_iff.1 hd
    obtain ⟨m, hm⟩ : ∃ m, ms[j]? = some m := ⟨_, List.getElem?_eq_getElem (by rw [hlen]; exact hj)⟩
    obtain ⟨impl, hi, _⟩ := (hms j d m hd hm).docs
    exact ⟨impl, hi⟩
  constructor
  · -- its schema
    obtain ⟨ee, hee, s, hs, hr⟩ := Zod.All2.mem_left hes ha
    have hs : Returns P .inlineSchema (.named j) s := hs
    rw [(C09_references P j d hd hderive hfrom s).1] at hs
    subst hs
    rw [(Zod.denotes_lazy hg.1 hg.2.1 hgood.2).read] at hr
    injection hr with hr
    have hu : (d.ns, some d.name) ∈ (validation es).uses := by
      unfold validation
      simp only [JsExpr.uses, JsExpr.uses.usesL, List.mem_append]
      refine Or.inl (Or.inr (Or.inl ?_))
      exact mem_usesL.2 ⟨ee, hee, by rw [← hr]; simp [JsExpr.uses, JsExpr.uses.usesL]⟩
    have hx : (some ((stub f.kind N.name f.ident ps es T).params.map (·.1)), validation es) ∈
        (Item.func (stub f.kind N.name f.ident ps es T)).exprs := by
      refine List.mem_map.2 ⟨.expr (validation es), ?_, rfl⟩
      unfold stub
      simp
    rcases (hres N hN _ hi).1 _ hx _ hu with hc | ⟨_, _, hc, _⟩ | ⟨y, hy, _, R, hR, hRn, hany⟩
    · rcases hc with hc | hc | hc
      · exact absurd hc hg.2.2
      · exact absurd (congrArg Prod.snd hc) (by simp)
      · exact absurd (congrArg Prod.snd hc) (by simp)
    · cases hc
    · injection hy with hy
      subst hy
      obtain ⟨k, hk, hkc⟩ := List.any_eq_true.1 hany
      rcases item_namesWith hmod hR hk with ⟨d', hd', hns, e', rfl⟩ | ⟨d', _, _, ⟨_, rfl⟩ | ⟨_, rfl⟩⟩ | ⟨g, rfl⟩
      · exact ⟨d', hd', by rw [hns]; exact hRn, of_decide_eq_true hkc⟩
      · cases hkc
      · cases hkc
      · cases hkc
  · -- its type
    obtain ⟨p, hpm, hpn, s, hs, hr⟩ := Zod.All2.mem_left hps ha
    have hs : Returns P .inline (.named j) s := hs
    rw [(C09_references P j d hd hderive hfrom s).2] at hs
    subst hs
    have hden : Den (d.ns ++ lit "." ++ d.name) [[.name [d.ns, d.name]]] :=
      ref_den (f := fun _ _ => none) hgood.1 (hp.typeNames d hdP) hgood.2 (runPieces_txt_some.2 rfl)
    rw [hden.read] at hr
    injection hr with hr
    have ht : p.2 ∈ (Item.func (stub f.kind N.name f.ident ps es T)).types := by
      refine List.mem_cons_of_mem _ (List.mem_map.2 ⟨p, hpm, rfl⟩)
    have := (hres N hN _ hi).2 _ ht
    rw [← hr] at this
    have : NamesIn (TypeNameOk M' N) (.name [d.ns, d.name]) := this
    cases this with
    | name _ hq =>
      obtain ⟨R, hR, hRn, hany⟩ := hq
      obtain ⟨k, hk, hkc⟩ := List.any_eq_true.1 hany
      rcases item_namesWith hmod hR hk with ⟨d', hd', hns, e', rfl⟩ | ⟨d', hd', hns, ⟨_, rfl⟩ | ⟨_, rfl⟩⟩ | ⟨g, rfl⟩
      · cases hkc
      · exact ⟨d', hd', by rw [hns]; exact hRn, Or.inl (of_decide_eq_true hkc)⟩
      · exact ⟨d', hd', by rw [hns]; exact hRn, Or.inr (of_decide_eq_true hkc)⟩
      · cases hkc

/-! ## Example -/

/-- `CodegenOptions { prefix_schema: "s", suffix_type: "T", prefix_interface: "I", .. }`. -/
def exOptions : Options := ⟨lit "s", [], [], lit "T", lit "I", []⟩

theorem exOptions_good : GoodAffixes exOptions exMod where
  consts := forall_two (by decide +kernel) (by decide +kernel)
  aliases := forall_two (by decide +kernel) (by decide +kernel)
  interfaces := forall_two (by decide +kernel) (by decide +kernel)

/-- The example of C52 with these options. -/
example : (readModule (generateWithOptions (mkRegistry exMod exImpls 9) exNames [] exOptions)).map
      (fun M => M.map (fun N => (N.name, N.items.map Item.name))) =
    some [(lit "Api", [lit "reset"]), (lit "Ns", [lit "sUser", lit "IUser", lit "get", lit "watch"]),
      (lit "Other", [lit "sKind", lit "KindT"])] := by decide +kernel

example : ∃ M, WritesWith exOptions (mkRegistry exMod exImpls 9) exNames M ∧ ModuleWith exOptions exMod exImpls exNames M :=
  C62_partial _ _ exMod_printable _ exOptions_good _ _ exMod_isModule

/-- C62 is false: in the example, the argument of `watch` has the schema `z.lazy(() => Ns.User)` and the type
`Ns.User`, but the namespace declares `sUser` and `IUser`. -/
theorem C62_violated : ¬ C62_statement := by
  intro h
  obtain ⟨M, hM, _, hres⟩ := h exMod exImpls exOptions _ exNames exMod_printable exOptions_good exMod_isModule
    (forall_two (by decide +kernel) (by decide +kernel))
    (forall_two (not_called (by decide +kernel)) (not_called (by decide +kernel)))
    (forall_two (by decide +kernel) (by decide +kernel))
    (forall_two (by decide +kernel) (by decide +kernel))
  obtain ⟨⟨d', hd', _, e⟩, _⟩ := C62_references exMod exImpls exMod_printable exOptions exOptions_good _ exNames exMod_isModule M hM hres
    _ (List.mem_cons_self) (by decide +kernel) _ (List.mem_cons_of_mem _ List.mem_cons_self) (lit "user") 0 List.mem_cons_self _ rfl rfl
  exact forall_two (p := fun d : Decl => constName exOptions d.name ≠ lit "User") (by decide +kernel) (by decide +kernel) d' hd' e

end Verif.Props
