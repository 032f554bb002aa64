import Verif.Props.Boundary
import Verif.Props.Calls
import Verif.Props.Written

/-!
# C04, C05, C51 and C57 with attributes that only serde knows

`#[serde(skip_serializing_if = "..")]`, `#[serde(deny_unknown_fields)]`, `#[serde(alias = "..")]` and `#[serde(default)]`
on structs change what serde writes and reads, but not the schemas and types; `#[serde(transparent)]` does not choose
the same field.
-/

namespace Verif.Props
open Verif Verif.Schema Verif.SchemaSpec Verif.Js Verif.Ts Verif.Spec Verif.Zod Verif.Codegen
open Verif.WireSpec Verif.DispatchSpec Verif.ServerSpec

/-! ## Fields that are left out -/

/-- `struct S { #[serde(skip_serializing_if = "Vec::is_empty")] tags: Vec<String> }` -/
def exLeft : Program := [.struct (exStruct "S" [{ exField "tags" (.vec (.prim .string)) with skipIf := true }])]

theorem exLeft_boundary : Boundary exLeft 5 :=
  boundary_one ⟨_, rfl⟩ (by simp [declTypes, fieldTypes, exStruct, exField, From.ty?, InScope.prim, InScope.vec])
    (by decide +kernel) rfl ⟨_, rfl⟩

theorem exLeft_ser (odd : Bool) : Ser exLeft odd (.named 0) (.obj []) :=
  .struct 0 _ _ rfl rfl rfl (.named _ _ (.omitted _ _ _ rfl rfl .nil))

/-- It is false: a field that is left out, but has no default, is missing for the schema. -/
theorem C05_violated_skip_if : ¬ C05_statement := by
  refine C05_refute_decl exLeft_boundary 0 _ (.obj []) (by decide) rfl (exLeft_ser true) ?_
  rintro ⟨r, k, h⟩
  match k, h with
  | k + 2, h => cases h

/-- The property is missing for the type, too. -/
theorem C51_skip_if : ∃ s T, Returns exLeft .typeDef (.named 0) s ∧ readType s = some T ∧
    Ser exLeft false (.named 0) (.obj []) ∧ ∀ D, ¬ Inhabits D false T (fromJson (.obj [])) := by
  refine ⟨lit "{tags: Array<string>}", .obj [(lit "tags", false, .app [lit "Array"] [.name [lit "string"]])], ⟨5, rfl⟩, rfl, exLeft_ser false, fun D h => ?_⟩
  rw [inhabits_obj] at h
  obtain ⟨kvs, e, h⟩ := h
  rw [fromJson_obj] at e
  injection e with e
  subst e
  exact absurd ((h _ List.mem_cons_self).2 rfl rfl).1 (by decide)

/-- `#[serde(deny_unknown_fields)] struct S { id: u8,
#[serde(default, skip_serializing_if = "Vec::is_empty")] tags: Vec<String> }` -/
def exBag : Program :=
  [.struct { exStruct "S" [exField "id" (.prim .u8),
    { exField "tags" (.vec (.prim .string)) with dflt := true, skipIf := true }] with deny := true }]

theorem exBag_boundary : Boundary exBag 5 :=
  boundary_one ⟨_, rfl⟩ (by simp [declTypes, fieldTypes, exStruct, exField, From.ty?, InScope.prim, InScope.vec])
    (by decide +kernel) rfl ⟨_, rfl⟩

theorem exBag_plain : ∀ d ∈ exBag, Plain d := by
  simp [exBag, Plain, exStruct, exField]

theorem exBag_noThrow : ∀ d ∈ exBag, NoThrow d := by
  simp [exBag, NoThrow, exStruct, exField, declTypes, fieldTypes, From.ty?, noBool, keptNames, goodKeys]
  decide +kernel

theorem exBag_guarded : Guarded exBag := by
  intro i
  rw [← acc_iff_not_endless]
  refine ⟨_, fun u hu => ?_⟩
  exfalso
  cases hu with
  | from_ _ d t hd ht =>
    match i, hd with
    | 0, hd => cases hd; cases ht
    | n + 1, hd => simp [exBag] at hd
  | struct _ s f hd _ ht hk =>
    match i, hd with
    | 0, hd => cases hd; rcases ht with ht | ht <;> cases ht
    | n + 1, hd => simp [exBag] at hd
  | untagged _ e v f hd =>
    match i, hd with
    | 0, hd => cases hd
    | n + 1, hd => simp [exBag] at hd

theorem exBag_complete : ∀ d ∈ exBag, CompleteDecl d := by
  have s1 : Complete (.prim .u8) := .prim _ rfl
  have s2 : Complete (.vec (.prim .string)) := .vec _ (.prim _ rfl)
  simp [exBag, CompleteDecl, CompleteFields, CompleteField, exStruct, exField, keptFields, serFields, From.ty?, s1, s2]

/-- The bag without tags is accepted. -/
example : ∃ s z, Returns exBag .schema (.named 0) s ∧ readSchema s = some z ∧
    Ser exBag false (.named 0) (.obj [(lit "id", .num (.int 1))]) ∧
    Accepts (moduleEnv exBag 5) z (fromJson (.obj [(lit "id", .num (.int 1))])) := by
  obtain ⟨s, hs⟩ := exBag_boundary.returns 0 _ rfl
  have hr := (eval_agree exBag_boundary.good exBag_boundary.styled 5 .schema (.named 0) s (Or.inl rfl) hs).read
  obtain ⟨z, hz⟩ : ∃ z, zOf exBag 5 .schema (.named 0) = some z := ⟨_, rfl⟩
  rw [hz] at hr
  have hser : Ser exBag false (.named 0) (.obj [(lit "id", .num (.int 1))]) :=
    .struct 0 _ _ rfl rfl rfl (.named _ _ (.field (exField "id" (.prim .u8)) _ _ _ rfl rfl rfl
      (.int _ 0 255 1 (.inl rfl) (by decide) (by decide)) (.omitted _ _ _ rfl rfl .nil)))
  refine ⟨s, z, ⟨5, hs⟩, hr, hser, C05_partial exBag _ exBag_boundary.good exBag_boundary.styled exBag_plain exBag_noThrow
    exBag_guarded exBag_complete exBag_boundary.isModule .schema (Or.inl rfl) _ (.named 0) s ⟨5, hs⟩ z hr _ hser⟩

/-! ## Properties that are not declared -/

/-- `#[serde(deny_unknown_fields)] struct S { id: u8 }` -/
def exDeny : Program := [.struct { exStruct "S" [exField "id" (.prim .u8)] with deny := true }]

theorem exDeny_boundary : Boundary exDeny 5 :=
  boundary_one ⟨_, rfl⟩ (by simp [declTypes, fieldTypes, exStruct, exField, From.ty?, InScope.prim])
    (by decide +kernel) rfl ⟨_, rfl⟩

/-- `fn put(s: S)` -/
def exPut : RpcItem where
  ident := lit "put"
  args := [(lit "s", .named 0)]
  kind := .method
  output := .prim .unit
  implTrait := false

noncomputable def exPutMethod : MethodDef Unit Unit where
  name := lit "put"
  args := [fun j => open Classical in if De exDeny (.named 0) j then some () else none]
  body := .method fun s _ => (s, .ok .null)

noncomputable def exPutNs : NamespaceDef Unit Unit :=
  { ident := lit "Ns", nsName := lit "Ns", methods := [exPutMethod] }

noncomputable def exPutBackend : BackendDef Unit Unit := ⟨[exPutNs]⟩

theorem not_color : ¬ De exDeny (.named 0) (.obj [(lit "color", .str (lit "red")), (lit "id", .num (.int 1))]) := by
  intro h
  have h := de_struct (P := exDeny) rfl rfl rfl h
  cases h with
  | named _ _ _ _ hm => exact absurd (hm [] rfl _ List.mem_cons_self) (by decide +kernel)

/-- C57 is false: `put({id: 1, color: "red"})` passes validation, which ignores the unknown property, but it is sent
with it, and serde rejects it. -/
theorem C57_violated_deny : ¬ C57_statement := by
  intro h
  obtain ⟨e, he, hz⟩ : ∃ e, SchemaOf exDeny (lit "s", .named 0) e ∧ evalE e = some (.schema (.lazy (lit "Ns") (lit "S"))) :=
    ⟨_, ⟨_, ⟨1, rfl⟩, rfl⟩, rfl⟩
  have hwf : WellFormed exPutBackend := by
    refine ⟨by simp [exPutBackend], fun n hn => ?_⟩
    simp only [exPutBackend, List.mem_singleton] at hn
    subst hn
    simp [exPutNs]
  obtain ⟨vs, js, value, h1, _, h2, _⟩ := h exDeny (moduleEnv exDeny 5) exDeny_boundary.valid exDeny_boundary.good
    exDeny_boundary.styled exDeny_boundary.isModule exPut [e] [_] (.cons he .nil) (.cons hz .nil) Unit Unit exPutBackend hwf 0 0
    exPutNs exPutMethod ⟨rfl, rfl⟩ ⟨rfl, .cons (fun _ h => ⟨(), if_pos h⟩) .nil⟩
    [.obj [(lit "id", .num (.fin (1 : Int))), (lit "color", .str (lit "red"))]] _ ⟨12, rfl⟩ (by decide +kernel) 1 (by decide)
  injection h1 with h1
  injection h1 with h1
  injection h1 with h1
  subst h1
  cases h2 with
  | cons h2 _ =>
    have h2 : (open Classical in if De exDeny (.named 0) (.obj [(lit "color", .str (lit "red")), (lit "id", .num (.int 1))])
      then some () else none) = some _ := h2
    rw [if_neg not_color] at h2
    cases h2

/-! ## Other names -/

/-- `struct S { #[serde(alias = "ident")] id: u8 }` -/
def exAlias : Program := [.struct (exStruct "S" [{ exField "id" (.prim .u8) with aliases := [lit "ident"] }])]

theorem exAlias_boundary : Boundary exAlias 5 :=
  boundary_one ⟨_, rfl⟩ (by simp [declTypes, fieldTypes, exStruct, exField, From.ty?, InScope.prim])
    (by decide +kernel) rfl ⟨_, rfl⟩

noncomputable def exPutAliasMethod : MethodDef Unit Unit where
  name := lit "put"
  args := [fun j => open Classical in if De exAlias (.named 0) j then some () else none]
  body := .method fun s _ => (s, .ok .null)

noncomputable def exPutAliasNs : NamespaceDef Unit Unit :=
  { ident := lit "Ns", nsName := lit "Ns", methods := [exPutAliasMethod] }

noncomputable def exPutAliasBackend : BackendDef Unit Unit := ⟨[exPutAliasNs]⟩

theorem not_both : ¬ De exAlias (.named 0) (.obj [(lit "id", .num (.int 1)), (lit "ident", .num (.int 2))]) := by
  intro h
  have h := de_struct (P := exAlias) rfl rfl rfl h
  cases h with
  | named _ _ _ _ _ h =>
    cases h _ (List.mem_singleton.2 rfl) rfl rfl with
    | present _ _ _ _ _ h => exact absurd (h (lit "ident") (List.mem_singleton.2 rfl)) nofun
    | alias _ _ a _ _ ha _ h =>
      cases List.mem_singleton.1 ha
      exact absurd (h (lit "id") List.mem_cons_self (by decide +kernel)) nofun
    | default _ _ _ h => exact absurd (h (lit "id") List.mem_cons_self) nofun
    | missing _ _ _ h => exact absurd (h (lit "id") List.mem_cons_self) nofun

/-- C57 is false: `put({id: 1, ident: 2})` passes validation, which ignores the property `ident`, but for serde the
field is given twice. -/
theorem C57_violated_alias : ¬ C57_statement := by
  intro h
  obtain ⟨e, he, hz⟩ : ∃ e, SchemaOf exAlias (lit "s", .named 0) e ∧ evalE e = some (.schema (.lazy (lit "Ns") (lit "S"))) :=
    ⟨_, ⟨_, ⟨1, rfl⟩, rfl⟩, rfl⟩
  have hwf : WellFormed exPutAliasBackend := by
    refine ⟨by simp [exPutAliasBackend], fun n hn => ?_⟩
    simp only [exPutAliasBackend, List.mem_singleton] at hn
    subst hn
    simp [exPutAliasNs]
  obtain ⟨vs, js, value, h1, _, h2, _⟩ := h exAlias (moduleEnv exAlias 5) exAlias_boundary.valid exAlias_boundary.good
    exAlias_boundary.styled exAlias_boundary.isModule exPut [e] [_] (.cons he .nil) (.cons hz .nil) Unit Unit exPutAliasBackend
    hwf 0 0 exPutAliasNs exPutAliasMethod ⟨rfl, rfl⟩ ⟨rfl, .cons (fun _ h => ⟨(), if_pos h⟩) .nil⟩
    [.obj [(lit "id", .num (.fin (1 : Int))), (lit "ident", .num (.fin (2 : Int)))]] _ ⟨12, rfl⟩ (by decide +kernel) 1 (by decide)
  injection h1 with h1
  injection h1 with h1
  injection h1 with h1
  subst h1
  cases h2 with
  | cons h2 _ =>
    have h2 : (open Classical in if De exAlias (.named 0) (.obj [(lit "id", .num (.int 1)), (lit "ident", .num (.int 2))])
      then some () else none) = some _ := h2
    rw [if_neg not_both] at h2
    cases h2

/-- What validation returns is accepted (C04), with the name of the field. -/
example (v r : JsVal) (s : Str) (z : ZSchema) (hs : Returns exAlias .schema (.named 0) s) (hz : readSchema s = some z)
    (hp : ParsesTo (moduleEnv exAlias 5) z v r) (hpl : plainJs true r = true) :
    ∃ j, stringify r = some (some j) ∧ De exAlias (.named 0) j := by
  have hsound : ∀ d ∈ exAlias, SoundDecl true exAlias d := by
    have s1 : Sound true exAlias (.prim .u8) := .prim _ rfl
    have n1 : NeverUndef exAlias (.prim .u8) := .prim _
    intro d hd
    simp only [exAlias, List.mem_singleton] at hd
    subst hd
    simp [SoundDecl, SoundFields, deStyle, exStruct, exField, keptFields, s1, n1]
    decide +kernel
  exact C04_defined_partial true exAlias _ exAlias_boundary.good exAlias_boundary.styled (by simp [exAlias, Plain, exStruct, exField])
    hsound exAlias_boundary.isModule .schema (Or.inl rfl) (.named 0) (.named 0)
    (.struct 0 _ rfl rfl (by simp [exStruct]) (by simp [exStruct])) s hs z hz v r hp hpl

/-- The old name alone is accepted by serde, and refused by the schema. -/
example : De exAlias (.named 0) (.obj [(lit "ident", .num (.int 2))]) ∧
    ∃ z, zOf exAlias 5 .schema (.named 0) = some z ∧ ¬ Accepts (moduleEnv exAlias 5) z (fromJson (.obj [(lit "ident", .num (.int 2))])) := by
  refine ⟨.struct 0 _ _ rfl rfl rfl (.named _ _ _ (by decide +kernel) (fun _ h => nomatch h) ?_ (by
    simp [StructDecl.deFields, exStruct, exField])), _, rfl, ?_⟩
  · intro f hf _ _
    cases List.mem_singleton.1 hf
    refine .alias _ _ (lit "ident") (.num (.int 2)) rfl (List.mem_singleton.2 rfl) rfl ?_ (.int .u8 0 255 2 rfl (by decide) (by decide))
    intro b hb hne
    rcases List.mem_cons.1 hb with rfl | hb
    · rfl
    · exact absurd (List.mem_singleton.1 hb) hne
  · rintro ⟨r, k, h⟩
    match k, h with
    | k + 2, h => cases h

/-! ## Markers in transparent structs -/

/-- `#[serde(transparent)] struct S { marker: PhantomData<u8>, value: String }` -/
def exMarker : Program :=
  [.struct { exStruct "S" [exField "marker" (.wrap .phantomData (.prim .u8)), exField "value" (.prim .string)] with transparent := true }]

theorem exMarker_boundary : Boundary exMarker 5 :=
  boundary_one ⟨_, rfl⟩ (by simp [declTypes, fieldTypes, exStruct, exField, From.ty?, InScope.prim, InScope.wrap])
    (by decide +kernel) rfl ⟨_, rfl⟩

/-- C04 is false: serde reads the field that is not a marker, the schema is that of the first field. -/
theorem C04_violated_marker : ¬ C04_statement := by
  refine C04_refute_decl exMarker_boundary 0 _ (.num (.fin (1 : Int))) _ (.num (.int 1)) (by decide) rfl ⟨4, rfl⟩ rfl ?_
  intro h
  generalize e : Json.num (.int 1) = j at h
  cases h with
  | transparent _ s f _ h1 _ _ h4 h5 =>
    injection h1 with h1
    injection h1 with h1
    subst h1
    injection h4 with h4
    subst h4
    generalize ht : (exField "value" (.prim .string)).ty = t at h5
    cases h5 <;> cases ht <;> cases e
    all_goals simp_all [smallRange, wideRange]
  | struct _ s _ h1 _ h3 =>
    injection h1 with h1
    injection h1 with h1
    subst h1
    cases h3
  | from_ _ d t _ h1 h2 =>
    injection h1 with h1
    subst h1
    cases h2
  | _ => rename_i h1 _ _ _; simp_all [exMarker]

/-- C05 is false: what serde writes is the other field. -/
theorem C05_violated_marker : ¬ C05_statement := by
  refine C05_refute_decl exMarker_boundary 0 _ (.str (lit "x")) (by decide) rfl
    (.transparent 0 _ (exField "value" (.prim .string)) _ rfl rfl rfl rfl (.string _)) ?_
  rintro ⟨r, k, h⟩
  match k, h with
  | k + 2, h => cases h

/-- What the other field accepts is read. -/
example : De exMarker (.named 0) (.str (lit "x")) :=
  .transparent 0 _ (exField "value" (.prim .string)) _ rfl rfl rfl rfl (.string _)

/-! ## Defaults of the struct -/

/-- `#[serde(default)] struct S { id: u8 }` -/
def exDefault : Program := [.struct { exStruct "S" [exField "id" (.prim .u8)] with dfltAll := true }]

/-- serde accepts that all fields are missing, the schema does not. -/
example : De exDefault (.named 0) (.obj []) ∧
    ∃ z, zOf exDefault 5 .schema (.named 0) = some z ∧ ¬ Accepts (moduleEnv exDefault 5) z (fromJson (.obj [])) := by
  refine ⟨.struct 0 _ _ rfl rfl rfl (.named _ _ _ (by decide +kernel) (fun _ h => nomatch h) ?_ (by
    simp [StructDecl.deFields, exStruct, exField])), _, rfl, ?_⟩
  · intro f hf _ _
    cases List.mem_singleton.1 hf
    exact .default _ _ rfl (fun a ha => rfl) rfl
  · rintro ⟨r, k, h⟩
    match k, h with
    | k + 2, h => cases h

/-! ## What validation returns -/

/-- What validation returns, however, is accepted (C04): the parsed value has no such property. -/
example : ∃ s z r j, Returns exBag .schema (.named 0) s ∧ readSchema s = some z ∧
    ParsesTo (moduleEnv exBag 5) z (.obj [(lit "id", .num (.fin (1 : Int))), (lit "color", .str (lit "red"))]) r ∧
    stringify r = some (some j) ∧ De exBag (.named 0) j := by
  obtain ⟨s, hs⟩ := exBag_boundary.returns 0 _ rfl
  have hr := (eval_agree exBag_boundary.good exBag_boundary.styled 5 .schema (.named 0) s (Or.inl rfl) hs).read
  obtain ⟨z, hz⟩ : ∃ z, zOf exBag 5 .schema (.named 0) = some z := ⟨_, rfl⟩
  obtain ⟨r, hp⟩ : ∃ r, parse (moduleEnv exBag 5) 12 z
      (.obj [(lit "id", .num (.fin (1 : Int))), (lit "color", .str (lit "red"))]) = some (some r) ∧ plainJs true r = true := by
    injection hz with hz
    subst hz
    exact ⟨_, rfl, rfl⟩
  rw [hz] at hr
  have hsound : ∀ d ∈ exBag, SoundDecl true exBag d := by
    have s1 : Sound true exBag (.prim .u8) := .prim _ rfl
    have s2 : Sound true exBag (.vec (.prim .string)) := .vec _ (.prim _ rfl)
    have n1 : NeverUndef exBag (.prim .u8) := .prim _
    have n2 : NeverUndef exBag (.vec (.prim .string)) := .vec _
    intro d hd
    simp only [exBag, List.mem_singleton] at hd
    subst hd
    simp [SoundDecl, SoundFields, deStyle, exStruct, exField, keptFields, s1, s2, n1, n2]
  obtain ⟨j, hj, hd⟩ := C04_defined_partial true exBag _ exBag_boundary.good exBag_boundary.styled exBag_plain hsound
    exBag_boundary.isModule .schema (Or.inl rfl) (.named 0) (.named 0)
    (.struct 0 _ rfl rfl (by simp [exStruct]) (by simp [exStruct])) s ⟨5, hs⟩ z hr _ r ⟨12, hp.1⟩ hp.2
  exact ⟨s, z, r, j, ⟨5, hs⟩, hr, ⟨12, hp.1⟩, hj, hd⟩

end Verif.Props
