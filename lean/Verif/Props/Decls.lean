import Verif.Ts.Decls
import Verif.Spec.Codegen
import Verif.Props.Types

/-!
# C14: exported declarations are syntactically valid TypeScript
-/

namespace Verif.Props
open Verif Verif.Schema Verif.SchemaSpec Verif.Js Verif.Ts Verif.Spec Verif.Codegen

/-- `generate()` writes exactly these two declarations for a registered type, each after the documentation. -/
theorem C14_declarations (m : Member) : CodegenSpec.typeText m =
    m.docs.getD [] ++ constText m ++ lit "\n" ++ m.docs.getD [] ++ typeDeclText m ++ lit "\n\n" := by
  unfold CodegenSpec.typeText constText typeDeclText
  cases m.typeDef <;> simp [List.append_assoc]

theorem member_ident {P : Program} (hg : GoodNames P) {i : Nat} {d : Decl} (hd : P[i]? = some d) :
    isIdent d.name = true := by
  have hgd := hg d (List.mem_of_getElem? hd)
  cases d with
  | struct s => unfold goodDecl at hgd; simp only [Bool.and_eq_true] at hgd; exact hgd.1.2
  | enum e => unfold goodDecl at hgd; simp only [Bool.and_eq_true] at hgd; exact hgd.1.1.2

/-- **C14, schemas.** The schema of every registered type is declared as a constant with the name of the type. -/
theorem C14_const (P : Program) (hg : GoodNames P) (hw : WellStyled P) (hn : Declarable P) (i : Nat) (d : Decl)
    (m : Member) (h : IsMember P i d m) : ∃ e, readExpr m.schema = some e ∧ readDecl (constText m) = some (.const d.name e) := by
  obtain ⟨n, hs⟩ := h.schema
  obtain ⟨e, he⟩ := (Zod.eval_agree hg hw n .schema (.named i) m.schema (Or.inl rfl) hs).denotes
  refine ⟨e, he, ?_⟩
  unfold constText
  rw [h.name]
  exact read_const (member_ident hg h.decl) (hn d (List.mem_of_getElem? h.decl)) he

/-- The full property: the type of every registered type is declared by a valid declaration with its name, as the
type that the text of `type_def()` is. -/
def C14_statement : Prop :=
  ∀ (P : Program), GoodNames P → GoodTypeNames P → WellStyled P → (∀ d ∈ P, Plain d) → Declarable P →
    ∀ (i : Nat) (d : Decl) (m : Member), IsMember P i d m → ∃ D s T, readDecl (typeDeclText m) = some D ∧
      D.name = d.name ∧ Returns P .typeDef (.named i) s ∧ readType s = some T ∧ D.type? = some T

theorem member_decl (P : Program) (hg : GoodNames P) (ht : GoodTypeNames P) (hw : WellStyled P)
    (hp : ∀ d ∈ P, Plain d) (hn : Declarable P) (i : Nat) (d : Decl) (m : Member) (h : IsMember P i d m) :
    (BrokenInterface P (.named i) ∧ readDecl (typeDeclText m) = none) ∨
    (¬ BrokenInterface P (.named i) ∧ ∃ D s T, readDecl (typeDeclText m) = some D ∧
      D.name = d.name ∧ Returns P .typeDef (.named i) s ∧ readType s = some T ∧ D.type? = some T) := by
  have hid := member_ident hg h.decl
  have hdn := hn d (List.mem_of_getElem? h.decl)
  obtain ⟨n, k, s, hk, ⟨f, hs⟩, htd⟩ := h.typeDef
  have hden := eval_agreeT hg ht hw f .typeDef (.named i) s (Or.inl rfl) hs
  have hiface : k = .interface → typeDeclText m = lit "export interface " ++ d.name ++ lit " " ++ s := by
    intro e; subst e; unfold typeDeclText; rw [htd, h.name]; rfl
  rcases kind_text hg ht hw hp n _ k hk f s hs with ⟨hne, hnb⟩ | ⟨e, hnb, ⟨r, hr⟩, props, hread⟩ | ⟨e, hb, hread⟩
  · refine Or.inr ⟨hnb, .alias d.name (ofDnf (dOf P f .typeDef (.named i))), s, _, ?_, rfl, ⟨f, hs⟩, hden.read, rfl⟩
    have : typeDeclText m = lit "export type " ++ d.name ++ lit " = " ++ s ++ lit ";" := by
      unfold typeDeclText
      rw [htd, h.name]
      cases k with
      | interface => exact absurd rfl hne
      | _ => rfl
    rw [this]
    exact read_alias hid hdn hden
  · refine Or.inr ⟨hnb, .interface d.name props, s, _, ?_, rfl, ⟨f, hs⟩, hread, rfl⟩
    rw [hiface e, read_interface hid hdn]
    unfold readType at hread
    have hlx : lex s = (lex r).map ([.p '{'] ++ ·) := by
      rw [hr]; exact lex_append (lexes_toks rfl)
    cases hl : lex r with
    | none => rw [hlx, hl] at hread; cases hread
    | some ts =>
      rw [hl] at hlx
      rw [hlx] at hread ⊢
      simp only [Option.map_some, List.singleton_append] at hread ⊢
      simp [parseInterface, hread]
  · refine Or.inl ⟨hb, ?_⟩
    rw [hiface e, read_interface hid hdn]
    unfold readType at hread
    cases hl : lex s with
    | none => rfl
    | some ts =>
      rw [hl] at hread
      simp only at hread ⊢
      unfold parseInterface
      split
      · rename_i ps _ hpt
        exact absurd hpt (hread _)
      · rfl

/-- **C14.** The property holds for all declarations but those of tuple structs (with other than one field) and of
structs with flattened fields, and of enums with `#[serde(from = ..)]` such a type (or a smart pointer to one). -/
theorem C14_partial (P : Program) (hg : GoodNames P) (ht : GoodTypeNames P) (hw : WellStyled P)
    (hp : ∀ d ∈ P, Plain d) (hn : Declarable P) (i : Nat) (d : Decl) (m : Member) (h : IsMember P i d m)
    (hb : ¬ BrokenInterface P (.named i)) : ∃ D s T, readDecl (typeDeclText m) = some D ∧ D.name = d.name ∧
      Returns P .typeDef (.named i) s ∧ readType s = some T ∧ D.type? = some T := by
  rcases member_decl P hg ht hw hp hn i d m h with ⟨hb', _⟩ | ⟨_, h⟩
  · exact absurd hb' hb
  · exact h

/-- Those declarations are never valid. -/
theorem C14_invalid (P : Program) (hg : GoodNames P) (ht : GoodTypeNames P) (hw : WellStyled P)
    (hp : ∀ d ∈ P, Plain d) (hn : Declarable P) (i : Nat) (d : Decl) (m : Member) (h : IsMember P i d m)
    (hb : BrokenInterface P (.named i)) : readDecl (typeDeclText m) = none := by
  rcases member_decl P hg ht hw hp hn i d m h with ⟨_, h⟩ | ⟨hb', _⟩
  · exact h
  · exact absurd hb hb'

/-- What `struct Pair(u8, String)` of the example program registers. -/
def exPair : Member where
  ns := lit "Ns"
  name := lit "Pair"
  schema := lit "z.tuple([z.number().finite().int().nonnegative().lte(255), z.string()])"
  typeDef := .interface (lit "[number, string]")
  docs := some []

theorem exPair_member : IsMember exTs 5 (.struct (exTuple "Pair" [exPos (.prim .u8), exPos (.prim .string)])) exPair where
  decl := rfl
  ns := rfl
  name := rfl
  schema := ⟨9, rfl⟩
  typeDef := ⟨9, .interface, lit "[number, string]", rfl, ⟨9, rfl⟩, rfl⟩
  docs := ⟨_, rfl, rfl⟩

theorem exTs_declarable : Declarable exTs := by
  intro d hd
  simp only [exTs, List.mem_cons, List.not_mem_nil, or_false] at hd
  rcases hd with e | e | e | e | e | e | e <;> subst e <;> decide +kernel

/-- Why it is false: `export interface Pair [number, string]` is no declaration. -/
theorem C14_tuple_struct : typeDeclText exPair = lit "export interface Pair [number, string]" ∧
    readDecl (typeDeclText exPair) = none := ⟨rfl, rfl⟩

/-- It is false. -/
theorem C14_violated : ¬ C14_statement := by
  intro h
  obtain ⟨D, s, T, hD, _⟩ := h exTs exTs_good exTs_types exTs_styled exTs_plain exTs_declarable 5 _ _ exPair_member
  rw [C14_tuple_struct.2] at hD
  cases hD

/-- What `enum Event` and `struct Base` of the example program register meets the hypotheses; the declarations are
valid. -/
example : ∃ m, IsMember exTs 3 (.enum (exEnum "Event" (.internal (lit "type")) [exVariant "Start" .unit [],
      exVariant "Move" .named [exField "x" (.prim .i32)]])) m ∧ ¬ BrokenInterface exTs (.named 3) ∧
    typeDeclText m = lit "export type Event = { type: \"Start\" } | { type: \"Move\", x: number };" :=
  ⟨⟨lit "Ns", lit "Event", _, .type _, some []⟩,
    ⟨rfl, rfl, rfl, ⟨9, rfl⟩, ⟨9, .type, _, rfl, ⟨9, rfl⟩, rfl⟩, ⟨_, rfl, rfl⟩⟩,
    fun h => (by obtain ⟨t, ht, _⟩ := broken_enum rfl h; cases ht), rfl⟩

end Verif.Props
