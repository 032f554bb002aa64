import Verif.Props.Complete
import Verif.Ts.Agree

/-!
# C04 and C05 at their boundaries

For every restriction in the theorems about what schemas accept (C04) and what serde writes (C05) that concerns
attributes or shapes of declarations: a program that shows that it is needed. Structs with flattened fields have a
schema that accepts nothing at all.
-/

namespace Verif.Props
open Verif Verif.Js Verif.Zod Verif.Schema Verif.SchemaSpec Verif.Spec Verif.Ts

/-! ## Programs and their modules -/

/-- A program whose declarations all have a schema. -/
structure Boundary (P : Program) (n : Nat) : Prop where
  valid : Valid P
  good : GoodNames P
  styled : WellStyled P
  distinct : DistinctDecls P
  returns : ∀ i d, P[i]? = some d → ∃ s, eval P n .schema (.named i) = some s

theorem Boundary.isModule {P : Program} {n : Nat} (h : Boundary P n) : IsModule P (moduleEnv P n) :=
  moduleEnv_isModule h.good h.styled h.distinct h.returns

theorem C04_refute_decl {P : Program} {n : Nat} (hb : Boundary P n) (i : Nat) (z : ZSchema) (v r : JsVal) (j : Json)
    (hi : i < P.length) (hn : zOf P n .schema (.named i) = some z) (hp : ParsesTo (moduleEnv P n) z v r)
    (hj : stringify r = some (some j)) (hd : ¬ De P (.named i) j) : ¬ C04_statement := by
  intro h
  obtain ⟨s, hs⟩ := hb.returns i _ (List.getElem?_eq_getElem hi)
  have hr := (eval_agree hb.good hb.styled n .schema (.named i) s (Or.inl rfl) hs).read
  rw [hn] at hr
  obtain ⟨j', hj', hde⟩ := h P _ hb.valid hb.good hb.styled hb.isModule (.named i) s z v r (.named hi) ⟨n, hs⟩ hr hp
  rw [hj] at hj'
  injection hj' with hj'
  injection hj' with hj'
  subst hj'
  exact hd hde

theorem C05_refute_decl {P : Program} {n : Nat} (hb : Boundary P n) (i : Nat) (z : ZSchema) (j : Json)
    (hi : i < P.length) (hn : zOf P n .schema (.named i) = some z) (hs : Ser P true (.named i) j)
    (hp : ¬ Accepts (moduleEnv P n) z (fromJson j)) : ¬ C05_statement := by
  intro h
  obtain ⟨s, hs'⟩ := hb.returns i _ (List.getElem?_eq_getElem hi)
  have hr := (eval_agree hb.good hb.styled n .schema (.named i) s (Or.inl rfl) hs').read
  rw [hn] at hr
  exact hp (h P _ hb.valid hb.good hb.styled hb.isModule (.named i) s z j (.named hi) ⟨n, hs'⟩ hr hs)

/-! ## Flattened fields -/

/-- **C05.** The schema of a struct with a flattened field accepts no value at all. -/
theorem C05_flatten (P : Program) (hg : GoodNames P) (hw : WellStyled P) (i : Nat) (s : StructDecl)
    (hi : P[i]? = some (.struct s)) (hf : s.from_ = .none) (ht : s.transparent = false) (hst : s.style = .named)
    (f : Field) (hmem : f ∈ s.fields) (hsk : f.skipDe = false) (hfl : f.flatten = true) (text : Str)
    (h : Returns P .schema (.named i) text) (E : ZEnv) (z : ZSchema) (hz : readSchema text = some z) (v : JsVal) :
    ¬ Accepts E z v := by
  obtain ⟨n, hn⟩ := h
  have hr := (eval_agree hg hw n .schema (.named i) text (Or.inl rfl) hn).read
  rw [hz] at hr
  cases n with
  | zero => cases hn
  | succ n =>
    have hr : zBody (zOf P n) P .schema (.named i) = some z := hr.symm
    rw [zBody_named P _ i hi] at hr
    simp only [declZ, hf, From.ty?, structZ, ht, hst] at hr
    have : z = .broken := by
      refine extendZ_broken ?_ hr
      intro h0
      rw [List.map_eq_nil_iff, structFields_filter s (·.flatten) (·.flatten) (fun _ => rfl)] at h0
      rw [List.map_eq_nil_iff] at h0
      have : f ∈ (keptFields s.fields).filter (·.flatten) :=
        List.mem_filter.2 ⟨List.mem_filter.2 ⟨hmem, by simp [hsk]⟩, hfl⟩
      rw [h0] at this
      cases this
    subst this
    rintro ⟨r, k, hk⟩
    cases k <;> cases hk

/-- A program of one declaration. -/
theorem boundary_one {d : Decl} {n : Nat} (h1 : ∃ impl, derive d = .ok impl) (h2 : ∀ t ∈ declTypes d, InScope [d] t)
    (h3 : goodDecl d = true) (h4 : wellStyled d = true) (h5 : ∃ s, eval [d] n .schema (.named 0) = some s) :
    Boundary [d] n where
  valid := ⟨by simpa using h1, by simpa using h2⟩
  good := by intro d' hd; rw [List.mem_singleton] at hd; subst hd; exact h3
  styled := by intro d' hd; rw [List.mem_singleton] at hd; subst hd; exact h4
  distinct := by unfold DistinctDecls; simp
  returns := by
    intro i d' hd
    match i, hd with
    | 0, _ => exact h5
    | i + 1, hd => simp at hd

/-- A program of two declarations. -/
theorem boundary_two {d e : Decl} {n : Nat} (h1 : Valid [d, e]) (h3 : goodDecl d = true ∧ goodDecl e = true)
    (h4 : wellStyled d = true ∧ wellStyled e = true) (h5 : DistinctDecls [d, e])
    (h6 : ∃ s, eval [d, e] n .schema (.named 0) = some s) (h7 : ∃ s, eval [d, e] n .schema (.named 1) = some s) :
    Boundary [d, e] n where
  valid := h1
  good := by intro x hx; simp at hx; rcases hx with rfl | rfl <;> simp [h3]
  styled := by intro x hx; simp at hx; rcases hx with rfl | rfl <;> simp [h4]
  distinct := h5
  returns := by
    intro i d' hd
    match i, hd with
    | 0, _ => exact h6
    | 1, _ => exact h7
    | i + 2, hd => simp at hd

/-! ## What serde reads -/

theorem de_struct {P : Program} {i : Nat} {s : StructDecl} {j : Json} (hi : P[i]? = some (.struct s))
    (hf : s.from_ = .none) (ht : s.transparent = false) (h : De P (.named i) j) :
    DeBody P (others s.deny []) s.style (StructDecl.deFields s) j := by
  cases h with
  | from_ _ d t _ h1 h2 => rw [hi] at h1; cases h1; rw [show Decl.from_ (.struct s) = s.from_ from rfl, hf] at h2; cases h2
  | transparent _ s' f _ h1 _ h3 => rw [hi] at h1; cases h1; rw [ht] at h3; cases h3
  | struct _ s' _ h1 _ _ h4 => rw [hi] at h1; cases h1; exact h4
  | _ => simp_all

theorem de_external {P : Program} {i : Nat} {e : EnumDecl} {j : Json} (hi : P[i]? = some (.enum e))
    (hf : e.from_ = .none) (ht : e.tag = .external) (h : De P (.named i) j) :
    (∃ v, FirstNamed e v ∧ j = .str v.name) ∨
      ∃ v j', FirstNamed e v ∧ j = .obj [(v.name, j')] ∧ DeBody P (others e.deny []) (deStyle v) v.fields j' := by
  cases h with
  | from_ _ d t _ h1 h2 => rw [hi] at h1; cases h1; rw [show Decl.from_ (.enum e) = e.from_ from rfl, hf] at h2; cases h2
  | externalUnit _ e' v h1 _ _ h4 => rw [hi] at h1; cases h1; exact .inl ⟨v, h4, rfl⟩
  | external _ e' v j' h1 _ _ h4 h5 => rw [hi] at h1; cases h1; exact .inr ⟨v, j', h4, rfl, h5⟩
  | _ => simp_all

theorem de_internal {P : Program} {i : Nat} {e : EnumDecl} {j : Json} {tag : Str} (hi : P[i]? = some (.enum e))
    (hf : e.from_ = .none) (ht : e.tag = .internal tag) (h : De P (.named i) j) :
    ∃ v kvs, j = .obj kvs ∧ jget kvs tag = some (.str v) := by
  cases h with
  | from_ _ d t _ h1 h2 => rw [hi] at h1; cases h1; rw [show Decl.from_ (.enum e) = e.from_ from rfl, hf] at h2; cases h2
  | internalUnit _ e' v tag' kvs h1 _ h3 _ _ _ h6 => rw [hi] at h1; cases h1; rw [ht] at h3; cases h3; exact ⟨_, _, rfl, h6⟩
  | internal _ e' v tag' kvs h1 _ h3 _ _ h6 => rw [hi] at h1; cases h1; rw [ht] at h3; cases h3; exact ⟨_, _, rfl, h6⟩
  | internalNewtype _ e' v tag' f kvs h1 _ h3 _ _ _ _ h6 =>
    rw [hi] at h1; cases h1; rw [ht] at h3; cases h3; exact ⟨_, _, rfl, h6⟩
  | _ => simp_all

theorem not_null_u8 {P : Program} : ¬ De P (.prim .u8) .null := by intro h; cases h

theorem not_obj_u8 {P : Program} {kvs : List (Str × Json)} : ¬ De P (.prim .u8) (.obj kvs) := by intro h; cases h

/-! ## C04 -/

/-- `struct S(u8, #[serde(default)] u8)` -/
def exDefaulted : Program := [.struct (exTuple "S" [exPos (.prim .u8), { exPos (.prim .u8) with dflt := true }])]

theorem exDefaulted_boundary : Boundary exDefaulted 4 :=
  boundary_one ⟨_, rfl⟩ (by simp [declTypes, fieldTypes, exTuple, exStruct, exPos, exField, From.ty?, InScope.prim])
    (by decide +kernel) rfl ⟨_, rfl⟩

/-- It is false: in a tuple `undefined` is accepted for a field with a default, but it is printed as `null`. -/
theorem C04_violated_default : ¬ C04_statement := by
  refine C04_refute_decl exDefaulted_boundary 0 _ (.arr [.num (.fin (1 : Int)), .undefined]) _
    (.arr [.num (.int 1), .null]) (by decide) rfl ⟨4, rfl⟩ rfl ?_
  intro h
  have h := de_struct rfl rfl rfl h
  cases h with
  | tuple _ _ _ _ h =>
    cases h with
    | cons _ h => cases h with
      | cons h _ => exact not_null_u8 h
  | short _ _ gs hs _ _ h1 _ h =>
    have h1 : [_, _] = gs ++ hs := h1
    match gs, h1, h with
    | [_], _, h => cases h with
      | cons _ h => cases h
    | [_, g], h1, h =>
      simp at h1
      obtain ⟨_, rfl, _⟩ := h1
      cases h with
      | cons _ h => cases h with
        | cons h _ => exact not_null_u8 h

/-- `struct S(#[serde(skip)] u8, u8)` -/
def exSkipped : Program :=
  [.struct (exTuple "S" [{ exPos (.prim .u8) with skipDe := true, skipSer := true }, exPos (.prim .u8)])]

theorem exSkipped_boundary : Boundary exSkipped 4 :=
  boundary_one ⟨_, rfl⟩ (by simp [declTypes, fieldTypes, exTuple, exStruct, exPos, exField, From.ty?, InScope.prim])
    (by decide +kernel) rfl ⟨_, rfl⟩

/-- It is false: with one of two fields skipped the schema is that of the other one, while serde reads an array. -/
theorem C04_violated_skipped : ¬ C04_statement := by
  refine C04_refute_decl exSkipped_boundary 0 _ (.num (.fin (1 : Int))) _ (.num (.int 1)) (by decide) rfl ⟨4, rfl⟩ rfl ?_
  intro h
  have h := de_struct rfl rfl rfl h
  generalize e : StructDecl.deFields (exTuple "S" [{ exPos (.prim .u8) with skipDe := true, skipSer := true }, exPos (.prim .u8)]) = fs at h
  cases h with
  | newtype f _ _ _ => injection e with _ e; cases e

/-- `enum E { A(Option<u8>) }` -/
def exOptional : Program := [.enum (exEnum "E" .external [exVariant "A" .tuple [exPos (.option (.prim .u8))]])]

theorem exOptional_boundary : Boundary exOptional 6 :=
  boundary_one ⟨_, rfl⟩ (by simp [declTypes, fieldTypes, exEnum, exVariant, exPos, exField, From.ty?, InScope.prim, InScope.option])
    (by decide +kernel) rfl ⟨_, rfl⟩

/-- It is false: an optional payload may be left out, and with it the name of the variant. -/
theorem C04_violated_missing : ¬ C04_statement := by
  refine C04_refute_decl exOptional_boundary 0 _ (.obj []) _ (.obj []) (by decide) rfl ⟨4, rfl⟩ rfl ?_
  intro h
  rcases de_external rfl rfl rfl h with ⟨_, _, h⟩ | ⟨_, _, _, h, _⟩ <;> cases h

/-- It is false: the same for `Result<Option<u8>, u8>`. -/
theorem C04_violated_result : ¬ C04_statement := by
  refine C04_refute (.result (.option (.prim .u8)) (.prim .u8)) 6 _ (.obj []) _ (.obj [])
    (.result (.option (.prim _)) (.prim _)) rfl ⟨_, rfl⟩ ⟨6, rfl⟩ rfl ?_
  intro h
  cases h

/-- `#[serde(tag = "type")] enum E { A(T) }` and `struct T { id: u8 }` -/
def exInternal : Program :=
  [.enum (exEnum "E" (.internal (lit "type")) [exVariant "A" .tuple [exPos (.named 1)]]),
   .struct (exStruct "T" [exField "id" (.prim .u8)])]

theorem two_valid {d e : Decl} (h1 : ∃ x, derive d = .ok x) (h2 : ∃ x, derive e = .ok x)
    (h3 : ∀ t ∈ declTypes d, InScope [d, e] t) (h4 : ∀ t ∈ declTypes e, InScope [d, e] t) : Valid [d, e] := by
  constructor
  · intro x hx; simp at hx; rcases hx with rfl | rfl; exact h1; exact h2
  · intro x hx; simp at hx; rcases hx with rfl | rfl; exact h3; exact h4

theorem in_second {d e : Decl} : InScope [d, e] (.named 1) := .named (by simp)

theorem exInternal_boundary : Boundary exInternal 6 :=
  boundary_two (two_valid ⟨_, rfl⟩ ⟨_, rfl⟩
      (by simp [declTypes, fieldTypes, exEnum, exVariant, exPos, exField, From.ty?, in_second])
      (by simp [declTypes, fieldTypes, exStruct, exField, From.ty?, InScope.prim]))
    (by decide +kernel) ⟨rfl, rfl⟩ (by unfold DistinctDecls; decide +kernel) ⟨_, rfl⟩ ⟨_, rfl⟩

/-- It is false: the schema of a single newtype variant of an internally tagged enum does not ask for the tag. -/
theorem C04_violated_internal : ¬ C04_statement := by
  refine C04_refute_decl exInternal_boundary 0 _ (.obj [(lit "A", .obj [(lit "id", .num (.fin (1 : Int)))])]) _
    (.obj [(lit "A", .obj [(lit "id", .num (.int 1))])]) (by decide) rfl ⟨8, rfl⟩ rfl ?_
  intro h
  obtain ⟨v, kvs, e, h⟩ := de_internal (tag := lit "type") rfl rfl rfl h
  injection e with e
  subst e
  cases h

/-- `enum E { A { #[serde(flatten)] inner: T } }` and `struct T { id: u8 }` -/
def exFlatVariant : Program :=
  [.enum (exEnum "E" .external [exVariant "A" .named [{ exField "inner" (.named 1) with flatten := true }]]),
   .struct (exStruct "T" [exField "id" (.prim .u8)])]

theorem exFlatVariant_boundary : Boundary exFlatVariant 6 :=
  boundary_two (two_valid ⟨_, rfl⟩ ⟨_, rfl⟩
      (by simp [declTypes, fieldTypes, exEnum, exVariant, exField, From.ty?, in_second])
      (by simp [declTypes, fieldTypes, exStruct, exField, From.ty?, InScope.prim]))
    (by decide +kernel) ⟨rfl, rfl⟩ (by unfold DistinctDecls; decide +kernel) ⟨_, rfl⟩ ⟨_, rfl⟩

/-- It is false: flattened fields of variants are not flattened in the schema. -/
theorem C04_violated_flatten : ¬ C04_statement := by
  refine C04_refute_decl exFlatVariant_boundary 0 _
    (.obj [(lit "A", .obj [(lit "inner", .obj [(lit "id", .num (.fin (1 : Int)))])])]) _
    (.obj [(lit "A", .obj [(lit "inner", .obj [(lit "id", .num (.int 1))])])]) (by decide) rfl ⟨8, rfl⟩ rfl ?_
  intro h
  rcases de_external rfl rfl rfl h with ⟨_, _, h⟩ | ⟨v, j, hv, h, hb⟩
  · cases h
  · injection h with h
    injection h with h
    injection h with h1 h2
    have hv : v = exVariant "A" .named [{ exField "inner" (.named 1) with flatten := true }] := by
      have := List.mem_of_find?_eq_some hv
      simpa [exEnum, exVariant] using this
    subst hv h2
    cases hb with
    | named _ _ _ _ _ _ h =>
      have h := h _ (List.mem_singleton.2 rfl) rfl rfl
      have h := de_struct rfl rfl rfl h
      cases h with
      | named _ _ _ _ _ h =>
        cases h _ (List.mem_singleton.2 rfl) rfl rfl with
        | present _ _ _ _ h => cases h
        | alias _ _ _ _ _ h => cases h
        | default _ _ _ _ h => cases h
        | missing _ _ _ _ h => cases h

/-! ## C05 -/

/-- It is false: serde writes an array for a tuple struct of which one field is left. -/
theorem C05_violated_skipped : ¬ C05_statement := by
  refine C05_refute_decl exSkipped_boundary 0 _ (.arr [.num (.int 1)]) (by decide) rfl
    (.struct 0 _ _ rfl rfl rfl (.tuple _ _ _ (by decide) (.refl _) (.cons (.int _ 0 255 1 (.inl rfl) (by decide) (by decide)) .nil))) ?_
  rintro ⟨r, k, h⟩
  cases k <;> cases h

/-- It is false: the payload of an internally tagged newtype variant is written next to the tag. -/
theorem C05_violated_internal : ¬ C05_statement := by
  refine C05_refute_decl exInternal_boundary 0 _ (.obj [(lit "type", .str (lit "A")), (lit "id", .num (.int 1))]) (by decide) rfl
    (.internalNewtype 0 _ (exVariant "A" .tuple [exPos (.named 1)]) _ _ _ rfl rfl rfl (by simp [exEnum]) rfl rfl rfl
      (.struct 1 _ _ rfl rfl rfl (.named _ _ (.field _ _ _ _ rfl rfl rfl (.int _ 0 255 1 (.inl rfl) (by decide) (by decide)) .nil)))) ?_
  rintro ⟨r, k, h⟩
  match k, h with
  | k + 3, h => cases h

/-- It is false: flattened fields of variants are not flattened in the schema. -/
theorem C05_violated_flatten_variant : ¬ C05_statement := by
  refine C05_refute_decl exFlatVariant_boundary 0 _ (.obj [(lit "A", .obj [(lit "id", .num (.int 1))])]) (by decide) rfl
    (.external 0 _ (exVariant "A" .named [{ exField "inner" (.named 1) with flatten := true }]) _ rfl rfl rfl (by simp [exEnum]) rfl
      (.named _ _ (.flat _ _ [(lit "id", .num (.int 1))] [] rfl rfl
        (.struct 1 _ _ rfl rfl rfl (.named _ _ (.field _ _ _ _ rfl rfl rfl (.int _ 0 255 1 (.inl rfl) (by decide) (by decide)) .nil))) .nil))) ?_
  rintro ⟨r, k, h⟩
  match k, h with
  | k + 4, h => cases h

/-- `struct S { a: u8, #[serde(flatten)] inner: T }` and `struct T { id: u8 }` -/
def exFlatStruct : Program :=
  [.struct (exStruct "S" [exField "a" (.prim .u8), { exField "inner" (.named 1) with flatten := true }]),
   .struct (exStruct "T" [exField "id" (.prim .u8)])]

theorem exFlatStruct_boundary : Boundary exFlatStruct 6 :=
  boundary_two (two_valid ⟨_, rfl⟩ ⟨_, rfl⟩
      (by simp [declTypes, fieldTypes, exStruct, exField, From.ty?, in_second, InScope.prim])
      (by simp [declTypes, fieldTypes, exStruct, exField, From.ty?, InScope.prim]))
    (by decide +kernel) ⟨rfl, rfl⟩ (by unfold DistinctDecls; decide +kernel) ⟨_, rfl⟩ ⟨_, rfl⟩

/-- A value that is written, but not accepted. -/
theorem exFlatStruct_ser : Ser exFlatStruct true (.named 0) (.obj [(lit "a", .num (.int 1)), (lit "id", .num (.int 2))]) :=
  .struct 0 _ _ rfl rfl rfl (.named _ _ (.field _ _ _ _ rfl rfl rfl (.int _ 0 255 1 (.inl rfl) (by decide) (by decide))
    (.flat _ _ [(lit "id", .num (.int 2))] [] rfl rfl
      (.struct 1 _ _ rfl rfl rfl (.named _ _ (.field _ _ _ _ rfl rfl rfl (.int _ 0 255 2 (.inl rfl) (by decide) (by decide)) .nil))) .nil)))

/-- It is false: the schema of a struct with a flattened field accepts nothing, see `C05_flatten`. -/
theorem C05_violated_flatten : ¬ C05_statement := by
  intro h
  obtain ⟨s, hs⟩ := exFlatStruct_boundary.returns 0 _ rfl
  have hr := (eval_agree exFlatStruct_boundary.good exFlatStruct_boundary.styled 6 .schema (.named 0) s (Or.inl rfl) hs).read
  have hr : readSchema s = some .broken := hr
  exact C05_flatten _ exFlatStruct_boundary.good exFlatStruct_boundary.styled 0 _ rfl rfl rfl rfl _
    (List.mem_cons_of_mem _ List.mem_cons_self) rfl rfl s ⟨6, hs⟩ _ _ hr _
    (h _ _ exFlatStruct_boundary.valid exFlatStruct_boundary.good exFlatStruct_boundary.styled exFlatStruct_boundary.isModule
      (.named 0) s _ _ (.named (by decide)) ⟨6, hs⟩ hr exFlatStruct_ser)

end Verif.Props
