import Verif.Ts.FileSound
import Verif.Props.File
import Verif.Props.Types
import Verif.Props.Valid

/-!
# C03, C07, C52 and C59 in terms of the grammars

The readers of the other files are functions. Here the same is said with the productions of `Spec/Grammar.lean`, and that
they leave no choice: a text has one sequence of tokens and one structure.
-/

namespace Verif.Props
open Verif Verif.Schema Verif.SchemaSpec Verif.Js Verif.Ts Verif.Spec Verif.Zod Verif.Codegen Verif.Client

/-- **C03, syntax.** Whatever `schema()` and `inline_schema()` return is derived by the grammar of expressions, in one way. -/
theorem C03_grammar (P : Program) (hg : GoodNames P) (hw : WellStyled P) (m : Method)
    (hm : m = .schema ∨ m = .inlineSchema) (t : Ty) (s : Str) (h : Returns P m t s) :
    ∃ ts e, Spells s ts ∧ Operand ts e ∧ ∀ ts' e', Spells s ts' → Operand ts' e' → ts' = ts ∧ e' = e := by
  obtain ⟨e, he⟩ := C03_parses P hg hw m hm t s h
  obtain ⟨ts, h1, h2⟩ := (readExpr_iff s e).1 he
  refine ⟨ts, e, h1, h2, fun ts' e' h3 h4 => ?_⟩
  have hs : some ts' = some ts := ((lex_iff s ts').2 h3).symm.trans ((lex_iff s ts).2 h1)
  cases hs
  have he : some e' = some e := ((parseExpr_iff ts e').2 h4).symm.trans ((parseExpr_iff ts e).2 h2)
  cases he
  exact ⟨rfl, rfl⟩

/-- **C07, syntax.** Whatever `type_def()` and `inline()` return is derived by the grammar of types, in one way. -/
theorem C07_grammar (P : Program) (hg : GoodNames P) (ht : GoodTypeNames P) (hw : WellStyled P) (m : Method)
    (hm : m = .typeDef ∨ m = .inline) (t : Ty) (s : Str) (h : Returns P m t s) :
    ∃ ts d, Spells s ts ∧ Alternatives ts d ∧ readType s = some (ofDnf d) ∧
      ∀ ts' d', Spells s ts' → Alternatives ts' d' → ts' = ts ∧ ofDnf d' = ofDnf d := by
  obtain ⟨T, hT⟩ := C07_parses P hg ht hw m hm t s h
  obtain ⟨ts, d, h1, h2, rfl⟩ := (readType_iff s T).1 hT
  refine ⟨ts, d, h1, h2, hT, fun ts' d' h3 h4 => ?_⟩
  have hs : some ts' = some ts := ((lex_iff s ts').2 h3).symm.trans ((lex_iff s ts).2 h1)
  cases hs
  have he : some (ofDnf d') = some (ofDnf d) :=
    ((parseType_iff ts _).2 ⟨d', h4, rfl⟩).symm.trans ((parseType_iff ts _).2 ⟨d, h2, rfl⟩)
  injection he with he
  exact ⟨rfl, he⟩

/-- **C52, syntax.** What is written after the client code is derived by the grammar of modules, as one module only. -/
theorem C52_grammar (P : Program) (impls : List (Str × List RpcItem)) (hp : Printable P impls) (r : Registry) (names : List Str)
    (h : IsModule P impls r) : ∃ text M, (∀ client, generate r names client = client ++ text) ∧ IsModuleText text M ∧
      (∀ M', IsModuleText text M' → M' = M) ∧ ModuleOf P impls names M := by
  obtain ⟨M, ⟨text, h1, h2⟩, h3⟩ := C52_partial P impls hp r names h
  refine ⟨text, M, h1, (readModule_iff _ _).1 h2, fun M' h' => ?_, h3⟩
  rw [← readModule_iff, h2] at h'
  injection h' with h'
  exact h'.symm

example : Printable exMod exImpls ∧ IsModule exMod exImpls (mkRegistry exMod exImpls 9) := ⟨exMod_printable, exMod_isModule⟩

/-- **C59, syntax.** The file is text whose brackets match, followed by the namespaces of the backend. -/
theorem C59_grammar (P : Program) (impls : List (Str × List RpcItem)) (r : Registry) (names : List Str) (hp : Printable P impls)
    (h : IsModule P impls r) :
    ∃ a b M, SpellsMarked false (generate r names clientText) (a ++ b) ∧ Balanced (unmark a) ∧ Namespaces b M ∧
      ModuleOf P impls names M := by
  obtain ⟨D, M, h1, h2, _⟩ := C59_partial P impls r names hp h
  obtain ⟨a, b, h3, h4, h5⟩ := readFile_sound h1
  exact ⟨a, b, M, h3, h4, h5, h2⟩

/-! ## The grammars reject what is not JavaScript or TypeScript -/

/-- A line break in a string. -/
example (ts : List Tok) : ¬ Spells (lit "\"a\nb\"") ts := by
  rw [← lex_iff, show lex (lit "\"a\nb\"") = none from by decide +kernel]
  nofun

/-- `007`. -/
example (ts : List Tok) : ¬ Spells (lit "007") ts := by
  rw [← lex_iff, show lex (lit "007") = none from by decide +kernel]
  nofun

/-- `-5` is no operand of a dot: `-5 .x` is `-(5 .x)`, which generated code does not contain. -/
example (e : JsExpr) : ¬ Operand [.p '-', .num 5, .p '.', .ident (lit "x")] e := by
  rw [← parseExpr_iff]
  nofun

/-- `z.string(` and `return`. -/
example (e : JsExpr) : ¬ Operand [.ident (lit "z"), .p '.', .ident (lit "string"), .p '('] e := by
  rw [← parseExpr_iff]
  nofun
example (e : JsExpr) : ¬ Operand [.ident (lit "return")] e := by
  rw [← parseExpr_iff, show parseExpr [.ident (lit "return")] = none from rfl]
  nofun

/-- `A & B | C` has two alternatives; the first has two operands. -/
example : Alternatives [.ident (lit "A"), .p '&', .ident (lit "B"), .p '|', .ident (lit "C")]
    [[.name [lit "A"], .name [lit "B"]], [.name [lit "C"]]] :=
  .or_ (ts := [_, _, _]) (d := [_]) (c := [_])
    (.one (.and_ (ts := [_]) (c := [_]) (.one (.name (.one rfl))) (.name (.one rfl)))) (.one (.name (.one rfl)))

/-- What `schema()` returns for `Vec<u8>` is among the texts. -/
example : ∃ s ts e, Returns [] .schema (.vec (.prim .u8)) s ∧ Spells s ts ∧ Operand ts e := by
  have h : Returns [] .schema (.vec (.prim .u8)) _ := ⟨3, rfl⟩
  obtain ⟨ts, e, h1, h2, _⟩ := C03_grammar [] (by intro d hd; cases hd) (by intro d hd; cases hd) .schema (.inl rfl) _ _ h
  exact ⟨_, ts, e, h, h1, h2⟩

end Verif.Props
