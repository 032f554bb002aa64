import Verif.Zod.Total
import Verif.Props.Schema

/-!
# C03: generated schema text is valid zod code
-/

namespace Verif.Props
open Verif Verif.Schema Verif.SchemaSpec Verif.Js Verif.Zod Verif.Spec

/-! ## A program used in examples -/

def exVariant (name : String) (style : Style) (fields : List Field) : Variant where
  name := name.toList
  serName := name.toList
  skipDe := false
  skipSer := false
  style := style
  fields := fields

def exPos (ty : Ty) : Field := { exField "" ty with named := false }

def exEnum (name : String) (tag : Tag) (variants : List Variant) : EnumDecl where
  ns := lit "Ns"
  name := name.toList
  attrs := []
  tag := tag
  from_ := .none
  into := none
  variants := variants

/-- `struct User { id: u32, name: String, friends: Vec<User>, shape: Shape }`,
`enum Shape { Empty, Circle(u32), Rect(u8, u16), Poly { points: Vec<(i32, i32)> } }`,
`#[serde(tag = "type")] enum Event { Start, Move { x: i32 } }`,
`#[serde(tag = "t", content = "c")] enum Msg { Ping, Text(String), At { pos: Pair } }`,
`struct Pair(u8, String)`, `struct Id(u32)`. -/
def exZod : Program :=
  [ .struct (exStruct "User" [exField "id" (.prim .u32), exField "name" (.prim .string),
      exField "friends" (.vec (.named 0)), exField "shape" (.named 1)]),
    .enum (exEnum "Shape" .external [exVariant "Empty" .unit [],
      exVariant "Circle" .tuple [exPos (.prim .u32)],
      exVariant "Rect" .tuple [exPos (.prim .u8), exPos (.prim .u16)],
      exVariant "Poly" .named [exField "points" (.vec (.tuple [.prim .i32, .prim .i32]))]]),
    .enum (exEnum "Event" (.internal (lit "type")) [exVariant "Start" .unit [],
      exVariant "Move" .named [exField "x" (.prim .i32)]]),
    .enum (exEnum "Msg" (.adjacent (lit "t") (lit "c")) [exVariant "Ping" .unit [],
      exVariant "Text" .tuple [exPos (.prim .string)],
      exVariant "At" .named [exField "pos" (.named 4)]]),
    .struct (exTuple "Pair" [exPos (.prim .u8), exPos (.prim .string)]),
    .struct (exTuple "Id" [exPos (.prim .u32)]) ]

theorem exZod_good : GoodNames exZod := by
  intro d hd
  simp only [exZod, List.mem_cons, List.not_mem_nil, or_false] at hd
  rcases hd with e | e | e | e | e | e <;> subst e <;> decide +kernel

theorem exZod_styled : WellStyled exZod := by
  intro d hd
  simp only [exZod, List.mem_cons, List.not_mem_nil, or_false] at hd
  rcases hd with e | e | e | e | e | e <;> subst e <;> decide +kernel

theorem exZod_plain : ∀ d ∈ exZod, Plain d := by
  intro d hd
  simp only [exZod, List.mem_cons, List.not_mem_nil, or_false] at hd
  rcases hd with e | e | e | e | e | e <;> subst e <;>
    simp [Plain, exStruct, exTuple, exEnum, exVariant, exPos, exField]

theorem exZod_noThrow : ∀ d ∈ exZod, NoThrow d := by
  intro d hd
  simp only [exZod, List.mem_cons, List.not_mem_nil, or_false] at hd
  rcases hd with e | e | e | e | e | e <;> subst e <;>
    simp [NoThrow, exStruct, exTuple, exEnum, exVariant, exPos, exField, declTypes, fieldTypes, From.ty?,
      noBool, noBool.noBools, keptNames, OkVariant, NoTaggedTuple, DistinctVariants, goodKeys]
  all_goals decide +kernel

/-! ## C03 -/

/-- **C03, syntax.** If the names of the program can be written into JavaScript, whatever `schema()` and
`inline_schema()` return is a JavaScript expression. -/
theorem C03_parses (P : Program) (hg : GoodNames P) (hw : WellStyled P) (m : Method)
    (hm : m = .schema ∨ m = .inlineSchema) (t : Ty) (s : Str) (h : Returns P m t s) :
    ∃ e, readExpr s = some e := by
  obtain ⟨n, hn⟩ := h
  exact (eval_agree hg hw n m t s hm hn).denotes

/-- The full property: the text also evaluates to a schema. -/
def C03_statement : Prop :=
  ∀ (P : Program), GoodNames P → WellStyled P → (∀ d ∈ P, Plain d) → ∀ (m : Method),
    (m = .schema ∨ m = .inlineSchema) → ∀ (t : Ty) (s : Str), Returns P m t s → ∃ z, readSchema s = some z

/-- It is false: zod has no `z.bool`. -/
theorem C03_violated : ¬ C03_statement := by
  intro h
  obtain ⟨z, hz⟩ := h [] (by simp [GoodNames]) (by simp [WellStyled]) (by simp) .schema (Or.inl rfl)
    (.prim .bool) (lit "z.bool()") ⟨1, rfl⟩
  have : readSchema (lit "z.bool()") = none := rfl
  rw [this] at hz
  cases hz

/-- `#[serde(tag = "type")] enum E { A(u8), B }`. -/
def exTagged : Program :=
  [.enum (exEnum "E" (.internal (lit "type")) [exVariant "A" .tuple [exPos (.prim .u8)], exVariant "B" .unit []])]

/-- It is also false for internally tagged enums with a tuple variant: `z.discriminatedUnion` throws,
because the schema of the variant lacks the tag. -/
theorem C03_violated_tagged : GoodNames exTagged ∧
    ∃ s, Returns exTagged .schema (.named 0) s ∧ (∃ e, readExpr s = some e) ∧ readSchema s = none := by
  have hg : GoodNames exTagged := by
    intro d hd
    simp only [exTagged, List.mem_singleton] at hd
    subst hd; decide +kernel
  have hw : WellStyled exTagged := by
    intro d hd
    simp only [exTagged, List.mem_singleton] at hd
    subst hd; rfl
  obtain ⟨s, hs⟩ : ∃ s, eval exTagged 4 .schema (.named 0) = some s := ⟨_, rfl⟩
  have := eval_agree hg hw 4 .schema (.named 0) s (Or.inl rfl) hs
  exact ⟨hg, s, ⟨4, hs⟩, this.denotes, this.read⟩

/-- **C03.** Without `bool`, without payloads in the tuple variants of internally tagged enums of two or
more variants, and without repeated keys, whatever `schema()` and `inline_schema()` return evaluates to a
zod schema. -/
theorem C03_partial (P : Program) (hg : GoodNames P) (hw : WellStyled P) (hpl : ∀ d ∈ P, Plain d)
    (hnt : ∀ d ∈ P, NoThrow d) (m : Method) (hm : m = .schema ∨ m = .inlineSchema) (t : Ty)
    (ht : noBool t = true) (s : Str) (h : Returns P m t s) : ∃ z, readSchema s = some z := by
  obtain ⟨n, hn⟩ := h
  obtain ⟨z, hz⟩ := zOf_total hw hpl hnt n m t s hm ht hn
  have := (eval_agree hg hw n m t s hm hn).read
  rw [hz] at this
  exact ⟨z, this⟩

/-- The text of a nested type over derived types evaluates to a schema: an instance that meets the
hypotheses. -/
example : ∃ s, Returns exZod .schema (.vec (.option (.named 0))) s ∧ ∃ z, readSchema s = some z := by
  obtain ⟨s, hs⟩ : ∃ s, eval exZod 5 .schema (.vec (.option (.named 0))) = some s := ⟨_, rfl⟩
  exact ⟨s, ⟨5, hs⟩, C03_partial exZod exZod_good exZod_styled exZod_plain exZod_noThrow .schema (Or.inl rfl)
    _ rfl s ⟨5, hs⟩⟩

example : ∃ s, Returns exZod .schema (.named 3) s ∧ ∃ z, readSchema s = some z := by
  obtain ⟨s, hs⟩ : ∃ s, eval exZod 6 .schema (.named 3) = some s := ⟨_, rfl⟩
  exact ⟨s, ⟨6, hs⟩, C03_partial exZod exZod_good exZod_styled exZod_plain exZod_noThrow .schema (Or.inl rfl)
    _ rfl s ⟨6, hs⟩⟩

end Verif.Props
